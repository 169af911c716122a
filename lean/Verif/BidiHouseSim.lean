import Verif.BidiHouse

/-
Each handler of bracket pairs is told the brackets of one isolating run sequence, and the
parser's look goes to the right one, but for the last.
-/
namespace Uax.Bidi
open Spec

def posOf : Bracket → Nat
  | .opening _ p => p
  | .closing _ p => p

theorem set_get (hs : List Handler) (i : Nat) (f : Handler → Handler) (j : Nat) :
    (setHandler hs i f)[j]? = if i = j then hs[j]?.map f else hs[j]? := by
  unfold setHandler
  rw [List.getElem?_modify]
  split <;> cases hs[j]? <;> rfl

/-- What a handler has made of the brackets it has been told. -/
def Digested (h : Handler) (bs : List Bracket) : Prop :=
  h.Known ∧ ∃ f, h.found.Perm f ∧ ∀ rest, bd16 false [] (bs ++ rest) = f ++ bd16 false h.opens rest

/-- The house after the marks before a position: `n` handlers in a chain, `ks` being those of
sequences which have not ended, each told its brackets in `done`. -/
structure Kept (H : House) (n : Nat) (ks : List Nat) (done : List (Nat × Bracket)) (pos : Nat) : Prop where
  len : H.handlers.length = n
  chain : ∀ i h, H.handlers[i]? = some h → h.next = if i + 1 < n then some (i + 1) else none
  state : ∀ i h, H.handlers[i]? = some h → Digested h (sequence i done)
  first0 : ∀ h, H.handlers[0]? = some h → h.firstpos = 0
  first : ∀ i h, 0 < i → H.handlers[i]? = some h → 0 < h.firstpos ∧ h.firstpos < pos
  irs : ∀ i h, H.handlers[i]? = some h → H.at h.firstpos = i
  top : ks.head? = some H.bd16
  stack : H.irsStack.map H.at = ks
  before : ∀ x ∈ H.irsStack, x < pos ∨ x = 0
  order : ks.Pairwise (· > ·)
  bound : ∀ k ∈ ks, k < n
  isOpen : ∀ k ∈ ks, ∀ h, H.handlers[k]? = some h → h.lastpos = 0
  isClosed : ∀ i h, H.handlers[i]? = some h → i ∉ ks → 0 < h.lastpos ∧ h.lastpos < pos
  own : ∀ x ∈ done, x.1 < n ∧ posOf x.2 < pos ∧
    (∀ h, H.handlers[x.1]? = some h → h.firstpos ≤ posOf x.2 ∧ (h.lastpos = 0 ∨ posOf x.2 ≤ h.lastpos)) ∧
    ∀ j h, x.1 < j → H.handlers[j]? = some h → posOf x.2 < h.firstpos ∨ (h.lastpos ≠ 0 ∧ h.lastpos < posOf x.2)

theorem Kept.later {H : House} {n : Nat} {ks : List Nat} {done : List (Nat × Bracket)} {pos pos' : Nat} (S : Kept H n ks done pos) (hp : pos ≤ pos') :
    Kept H n ks done pos' where
  len := S.len
  chain := S.chain
  state := S.state
  first0 := S.first0
  first i h hi hh := ⟨(S.first i h hi hh).1, Nat.lt_of_lt_of_le (S.first i h hi hh).2 hp⟩
  irs := S.irs
  top := S.top
  stack := S.stack
  before x hx := (S.before x hx).imp (fun h => Nat.lt_of_lt_of_le h hp) id
  order := S.order
  bound := S.bound
  isOpen := S.isOpen
  isClosed i h hh hi := ⟨(S.isClosed i h hh hi).1, Nat.lt_of_lt_of_le (S.isClosed i h hh hi).2 hp⟩
  own x hx := ⟨(S.own x hx).1, Nat.lt_of_lt_of_le (S.own x hx).2.1 hp, (S.own x hx).2.2⟩

theorem sequence_append (k : Nat) (a b : List (Nat × Bracket)) : sequence k (a ++ b) = sequence k a ++ sequence k b := by
  simp [sequence]

/-- The present handler is told a bracket. -/
theorem Kept.told {H : House} {n : Nat} {ks : List Nat} {done : List (Nat × Bracket)} {pos pos' : Nat} (S : Kept H n ks done pos) (hp : pos < pos')
    (f : Handler → Handler) (hf : ∀ h, (f h).next = h.next ∧ (f h).firstpos = h.firstpos ∧ (f h).lastpos = h.lastpos)
    (b : Bracket) (hb : posOf b = pos) (hd : ∀ h bs, Digested h bs → Digested (f h) (bs ++ [b])) :
    Kept { H with handlers := setHandler H.handlers H.bd16 f } n ks (done ++ [(H.bd16, b)]) pos' := by
  have hget : ∀ (i : Nat) (h : Handler), (setHandler H.handlers H.bd16 f)[i]? = some h → ∃ h0 : Handler, H.handlers[i]? = some h0 ∧ h.next = h0.next ∧ h.firstpos = h0.firstpos ∧
      h.lastpos = h0.lastpos := by
    intro i h hh
    rw [set_get] at hh
    split at hh
    · cases hq : H.handlers[i]? with
      | none => rw [hq] at hh; cases hh
      | some h0 =>
        rw [hq] at hh
        injection hh with hh
        subst hh
        exact ⟨h0, rfl, hf h0⟩
    · exact ⟨h, hh, rfl, rfl, rfl⟩
  have hmem : H.bd16 ∈ ks := List.mem_of_mem_head? S.top
  have S' := S.later (Nat.le_of_lt hp)
  refine ⟨by rw [← S.len]; exact setHandler_length _ _ _, ?_, ?_, ?_, ?_, ?_, S.top, S.stack, S'.before, S.order, S.bound, ?_, ?_, ?_⟩
  · intro i h hh
    obtain ⟨h0, e0, e1, -⟩ := hget i h hh
    rw [e1]; exact S.chain i h0 e0
  · intro i h hh
    change (setHandler H.handlers H.bd16 f)[i]? = some h at hh
    rw [set_get] at hh
    rw [sequence_append]
    split at hh
    · rename_i hi
      cases hq : H.handlers[i]? with
      | none => rw [hq] at hh; cases hh
      | some h0 =>
        rw [hq] at hh
        injection hh with hh
        subst hh
        have : sequence i [(H.bd16, b)] = [b] := by simp [sequence, hi]
        rw [this]
        exact hd h0 _ (S.state i h0 hq)
    · rename_i hi
      have : sequence i [(H.bd16, b)] = [] := by simp [sequence, hi]
      rw [this, List.append_nil]
      exact S.state i h hh
  · intro h hh
    obtain ⟨h0, e0, -, e1, -⟩ := hget 0 h hh
    rw [e1]; exact S.first0 h0 e0
  · intro i h hi hh
    obtain ⟨h0, e0, -, e1, -⟩ := hget i h hh
    rw [e1]; exact S'.first i h0 hi e0
  · intro i h hh
    obtain ⟨h0, e0, -, e1, -⟩ := hget i h hh
    rw [e1]; exact S.irs i h0 e0
  · intro k hk h hh
    obtain ⟨h0, e0, -, -, e1⟩ := hget k h hh
    rw [e1]; exact S.isOpen k hk h0 e0
  · intro i h hh hi
    obtain ⟨h0, e0, -, -, e1⟩ := hget i h hh
    rw [e1]; exact S'.isClosed i h0 e0 hi
  · intro x hx
    rw [List.mem_append, List.mem_singleton] at hx
    rcases hx with hx | rfl
    · obtain ⟨o1, o2, o3, o4⟩ := S'.own x hx
      refine ⟨o1, o2, ?_, ?_⟩
      · intro h hh
        obtain ⟨h0, e0, -, e1, e2⟩ := hget _ h hh
        rw [e1, e2]; exact o3 h0 e0
      · intro j h hj hh
        obtain ⟨h0, e0, -, e1, e2⟩ := hget _ h hh
        rw [e1, e2]; exact o4 j h0 hj e0
    · dsimp only
      rw [hb]
      refine ⟨S.bound _ hmem, hp, ?_, ?_⟩
      · intro h hh
        obtain ⟨h0, e0, -, e1, e2⟩ := hget _ h hh
        rw [e1, e2]
        refine ⟨?_, Or.inl (S.isOpen _ hmem h0 e0)⟩
        by_cases hz : H.bd16 = 0
        · rw [hz] at e0
          rw [S.first0 h0 e0]; omega
        · exact Nat.le_of_lt (S.first _ h0 (by omega) e0).2
      · intro j h hj hh
        obtain ⟨h0, e0, -, e1, e2⟩ := hget _ h hh
        rw [e1, e2]
        right
        have hni : j ∉ ks := by
          intro hm
          have ho := S.order
          have ht := S.top
          cases ks with
          | nil => cases hm
          | cons k ks =>
            injection ht with ht
            subst ht
            rcases List.mem_cons.mp hm with e | e
            · omega
            · have := (List.pairwise_cons.mp ho).1 j e
              omega
        have := S.isClosed j h0 e0 hni
        omega

theorem Digested.push {h : Handler} {bs : List Bracket} (hd : Digested h bs) {r : Nat} {s : Scrap} (hs : s.clz = cBRACKO) {p : Nat × Nat}
    (hp : pairedBrackets.find? (fun p => p.1 == r) = some p) : Digested (h.pushOpening r s) (bs ++ [.opening p.2 s.l]) := by
  obtain ⟨hk, f, h1, h2⟩ := hd
  obtain ⟨q1, q2⟩ := push_opens h r s hs
  rw [hp] at q2
  dsimp only at q2
  refine ⟨?_, f, by rw [q1]; exact h1, ?_⟩
  · intro x hx
    rw [q2] at hx
    split at hx
    · rw [List.mem_cons] at hx
      rcases hx with rfl | hx
      · exact ⟨p, List.mem_of_find?_eq_some hp, rfl⟩
      · exact hk x hx
    · exact hk x hx
  · intro rest
    rw [List.append_assoc, h2, q2]
    show f ++ bd16 false h.opens (.opening p.2 s.l :: rest) = _
    rw [bd16]
    split <;> rfl

theorem Digested.pop {h : Handler} {bs : List Bracket} (hd : Digested h bs) (r : Nat) (s : Scrap) :
    Digested (h.findPair r s) (bs ++ [.closing r s.l]) := by
  obtain ⟨hk, f, h1, h2⟩ := hd
  have q := find_opens h r s
  cases hdw : h.opens.dropWhile (fun x => x.1 ≠ r) with
  | nil =>
    rw [hdw] at q
    dsimp only at q
    rw [q]
    refine ⟨hk, f, h1, fun rest => ?_⟩
    rw [List.append_assoc, h2]
    show f ++ bd16 false h.opens (.closing r s.l :: rest) = _
    rw [bd16]
    simp only [Bool.false_eq_true, if_false]
    rw [hdw]
  | cons y below =>
    obtain ⟨y1, y2⟩ := y
    rw [hdw] at q
    dsimp only at q
    refine ⟨?_, f ++ [(y2, s.l)], q.2.trans (h1.append_right _), fun rest => ?_⟩
    · intro x hx
      rw [q.1] at hx
      have hm : x ∈ h.opens.dropWhile (fun x => x.1 ≠ r) := by rw [hdw]; exact List.mem_cons_of_mem _ hx
      exact hk x ((List.dropWhile_sublist _).mem hm)
    · rw [List.append_assoc, h2, q.1]
      show f ++ bd16 false h.opens (.closing r s.l :: rest) = _
      rw [bd16]
      simp only [Bool.false_eq_true, if_false]
      rw [hdw]
      dsimp only
      rw [List.append_assoc]
      rfl

theorem lastOf_chain {hs : List Handler} {n : Nat} (hl : hs.length = n) (hc : ∀ i h, hs[i]? = some h → h.next = if i + 1 < n then some (i + 1) else none) :
    ∀ (fuel i : Nat), i < n → n ≤ i + fuel + 1 → lastOf hs fuel i = n - 1 := by
  intro fuel
  induction fuel with
  | zero => intro i h1 h2; rw [lastOf]; omega
  | succ fuel ih =>
    intro i h1 h2
    rw [lastOf]
    obtain ⟨h, hh⟩ : ∃ h, hs[i]? = some h := ⟨_, List.getElem?_eq_getElem (by omega)⟩
    rw [hh, Option.bind_some, hc i h hh]
    by_cases hn : i + 1 < n
    · rw [if_pos hn]
      exact ih (i + 1) hn (by omega)
    · rw [if_neg hn]
      show i = n - 1
      omega

theorem Kept.at0 {H : House} {n : Nat} {ks : List Nat} {done : List (Nat × Bracket)} {pos : Nat} (S : Kept H n ks done pos) : 0 < n ∧ H.at 0 = 0 := by
  have hn : 0 < n := by
    have := S.bound _ (List.mem_of_mem_head? S.top)
    omega
  obtain ⟨h, hh⟩ : ∃ h, H.handlers[0]? = some h := ⟨_, List.getElem?_eq_getElem (by rw [S.len]; exact hn)⟩
  have := S.irs 0 h hh
  rw [S.first0 h hh] at this
  exact ⟨hn, this⟩

/-- An isolate begins. -/
theorem Kept.entered {H : House} {n : Nat} {ks : List Nat} {done : List (Nat × Bracket)} {pos pos' : Nat} (S : Kept H n ks done pos) (h0 : 0 < pos)
    (hp : pos < pos') : Kept (H.enter pos) (n + 1) (n :: ks) done pos' := by
  obtain ⟨hn, ha⟩ := S.at0
  have hlast : lastOf H.handlers H.handlers.length (H.at 0) = n - 1 := by
    rw [ha]
    exact lastOf_chain S.len S.chain _ 0 hn (by rw [S.len]; omega)
  have hget : ∀ (i : Nat) (h : Handler), (H.enter pos).handlers[i]? = some h →
      (i < n ∧ ∃ h1 : Handler, H.handlers[i]? = some h1 ∧ h.next = (if i + 1 = n then some n else h1.next) ∧ h.firstpos = h1.firstpos ∧ h.lastpos = h1.lastpos ∧
        h.found = h1.found ∧ h.opens = h1.opens) ∨ (i = n ∧ h = { firstpos := pos }) := by
    intro i h hh
    unfold House.enter at hh
    dsimp only at hh
    rw [hlast, List.getElem?_append, setHandler_length, S.len] at hh
    split at hh
    · rename_i hi
      left
      refine ⟨hi, ?_⟩
      rw [set_get] at hh
      split at hh
      · cases hq : H.handlers[i]? with
        | none => rw [hq] at hh; cases hh
        | some h1 =>
          rw [hq] at hh
          injection hh with hh
          subst hh
          exact ⟨h1, rfl, by rw [if_pos (by omega)], rfl, rfl, rfl, rfl⟩
      · exact ⟨h, hh, by rw [if_neg (by omega)], rfl, rfl, rfl, rfl⟩
    · right
      have : i - n = 0 := by
        by_cases hz : i - n = 0
        · exact hz
        · rw [List.getElem?_eq_none (by simp; omega)] at hh
          cases hh
      rw [this] at hh
      injection hh with hh
      exact ⟨by omega, hh.symm⟩
  have hat : ∀ x, x < pos ∨ x = 0 → (H.enter pos).at x = H.at x := by
    intro x hx
    unfold House.at House.enter
    dsimp only
    rw [List.find?_cons_of_neg (by simp; omega)]
  have hatp : (H.enter pos).at pos = n := by
    unfold House.at House.enter
    dsimp only
    rw [List.find?_cons_of_pos (by simp), S.len]
    rfl
  have S' := S.later (Nat.le_of_lt hp)
  refine ⟨?_, ?_, ?_, ?_, ?_, ?_, ?_, ?_, ?_, ?_, ?_, ?_, ?_, ?_⟩
  · unfold House.enter
    dsimp only
    rw [List.length_append, setHandler_length, S.len]
    rfl
  · intro i h hh
    rcases hget i h hh with ⟨hi, h1, e1, e2, -⟩ | ⟨rfl, rfl⟩
    · rw [e2, S.chain i h1 e1]
      by_cases e : i + 1 = n
      · rw [if_pos e, if_pos (by omega), e]
      · rw [if_neg e, if_pos (by omega), if_pos (by omega)]
    · rw [if_neg (by omega)]
  · intro i h hh
    rcases hget i h hh with ⟨hi, h1, e1, -, -, -, e5, e6⟩ | ⟨rfl, rfl⟩
    · have := S.state i h1 e1
      unfold Digested Handler.Known at this ⊢
      rw [e5, e6]
      exact this
    · have : sequence i done = [] := by
        unfold sequence
        rw [List.map_eq_nil_iff, List.filter_eq_nil_iff]
        intro x hx he
        have := (S.own x hx).1
        have : x.1 = i := by simpa using he
        omega
      rw [this]
      exact ⟨by intro x hx; simp [Handler.opens] at hx, [], List.Perm.refl _, fun rest => rfl⟩
  · intro h hh
    rcases hget 0 h hh with ⟨hi, h1, e1, -, e3, -⟩ | ⟨e, -⟩
    · rw [e3]; exact S.first0 h1 e1
    · omega
  · intro i h hi hh
    rcases hget i h hh with ⟨-, h1, e1, -, e3, -⟩ | ⟨-, rfl⟩
    · rw [e3]; exact S'.first i h1 hi e1
    · exact ⟨h0, hp⟩
  · intro i h hh
    rcases hget i h hh with ⟨hi, h1, e1, -, e3, -⟩ | ⟨rfl, rfl⟩
    · rw [e3, hat]
      · exact S.irs i h1 e1
      · by_cases hz : i = 0
        · subst hz; right; exact S.first0 h1 e1
        · left; exact (S.first i h1 (by omega) e1).2
    · exact hatp
  · show some n = some H.handlers.length
    rw [S.len]
  · have : (H.enter pos).irsStack = pos :: H.irsStack := rfl
    rw [this, List.map_cons, hatp, ← S.stack]
    congr 1
    exact List.map_congr_left fun x hx => hat x (S.before x hx)
  · intro x hx
    have : (H.enter pos).irsStack = pos :: H.irsStack := rfl
    rw [this, List.mem_cons] at hx
    rcases hx with rfl | hx
    · exact Or.inl hp
    · exact S'.before x hx
  · exact List.pairwise_cons.mpr ⟨fun k hk => S.bound k hk, S.order⟩
  · intro k hk
    rcases List.mem_cons.mp hk with rfl | hk
    · omega
    · have := S.bound k hk; omega
  · intro k hk h hh
    rcases hget k h hh with ⟨hi, h1, e1, -, -, e4, -⟩ | ⟨rfl, rfl⟩
    · rw [e4]
      rcases List.mem_cons.mp hk with rfl | hk
      · omega
      · exact S.isOpen k hk h1 e1
    · rfl
  · intro i h hh hi
    rcases hget i h hh with ⟨-, h1, e1, -, -, e4, -⟩ | ⟨rfl, rfl⟩
    · rw [e4]
      exact S'.isClosed i h1 e1 (fun hm => hi (List.mem_cons_of_mem _ hm))
    · exact absurd (List.mem_cons_self ..) hi
  · intro x hx
    obtain ⟨o1, o2, o3, o4⟩ := S'.own x hx
    refine ⟨by omega, o2, ?_, ?_⟩
    · intro h hh
      rcases hget _ h hh with ⟨-, h1, e1, -, e3, e4, -⟩ | ⟨e, -⟩
      · rw [e3, e4]; exact o3 h1 e1
      · omega
    · intro j h hj hh
      rcases hget _ h hh with ⟨-, h1, e1, -, e3, e4, -⟩ | ⟨rfl, rfl⟩
      · rw [e3, e4]; exact o4 j h1 hj e1
      · exact Or.inl (S.own x hx).2.1

/-- An isolate ends. -/
theorem Kept.left {H : House} {n k k' : Nat} {ks : List Nat} {done : List (Nat × Bracket)} {pos pos' : Nat} (S : Kept H n (k :: k' :: ks) done pos)
    (hp : pos < pos') : Kept (H.leave pos) n (k' :: ks) done pos' := by
  have hk : H.bd16 = k := by
    have := S.top
    injection this with this
    exact this.symm
  obtain ⟨x, y, rest, hx⟩ : ∃ x y rest, H.irsStack = x :: y :: rest := by
    have := S.stack
    cases h1 : H.irsStack with
    | nil => rw [h1] at this; cases this
    | cons x r =>
      cases r with
      | nil => rw [h1] at this; simp at this
      | cons y r => exact ⟨x, y, r, rfl⟩
  have hy : H.at y = k' := by
    have := S.stack
    rw [hx] at this
    simp only [List.map_cons, List.cons.injEq] at this
    exact this.2.1
  have hrest : rest.map H.at = ks := by
    have := S.stack
    rw [hx] at this
    simp only [List.map_cons, List.cons.injEq] at this
    exact this.2.2
  have hlv : H.leave pos = { handlers := setHandler H.handlers k fun h => { h with lastpos := pos }, irs := H.irs, irsStack := y :: rest, bd16 := k' } := by
    unfold House.leave
    rw [hx, hk]
    dsimp only
    rw [hy]
  have hk0 : k' < k := (List.pairwise_cons.mp S.order).1 k' (by simp)
  have hget : ∀ (i : Nat) (h : Handler), (H.leave pos).handlers[i]? = some h → ∃ h1 : Handler, H.handlers[i]? = some h1 ∧ h.next = h1.next ∧ h.firstpos = h1.firstpos ∧
      h.lastpos = (if i = k then pos else h1.lastpos) ∧ h.found = h1.found ∧ h.opens = h1.opens := by
    intro i h hh
    rw [hlv] at hh
    dsimp only at hh
    rw [set_get] at hh
    split at hh
    · rename_i hi
      cases hq : H.handlers[i]? with
      | none => rw [hq] at hh; cases hh
      | some h1 =>
        rw [hq] at hh
        injection hh with hh
        subst hh
        exact ⟨h1, rfl, rfl, rfl, by rw [if_pos hi.symm], rfl, rfl⟩
    · rename_i hi
      exact ⟨h, hh, rfl, rfl, by rw [if_neg (fun e => hi e.symm)], rfl, rfl⟩
  have hat : ∀ z, (H.leave pos).at z = H.at z := by
    intro z
    rw [hlv]
    rfl
  have S' := S.later (Nat.le_of_lt hp)
  have hpos : 0 < pos := by
    have hb := S.bound k (by simp)
    obtain ⟨h, hh⟩ : ∃ h, H.handlers[k]? = some h := ⟨_, List.getElem?_eq_getElem (by rw [S.len]; exact hb)⟩
    have := S.first k h (by omega) hh
    omega
  refine ⟨?_, ?_, ?_, ?_, ?_, ?_, ?_, ?_, ?_, ?_, ?_, ?_, ?_, ?_⟩
  · rw [hlv]
    dsimp only
    rw [setHandler_length, S.len]
  · intro i h hh
    obtain ⟨h1, e1, e2, -⟩ := hget i h hh
    rw [e2]; exact S.chain i h1 e1
  · intro i h hh
    obtain ⟨h1, e1, -, -, -, e5, e6⟩ := hget i h hh
    have := S.state i h1 e1
    unfold Digested Handler.Known at this ⊢
    rw [e5, e6]
    exact this
  · intro h hh
    obtain ⟨h1, e1, -, e3, -⟩ := hget 0 h hh
    rw [e3]; exact S.first0 h1 e1
  · intro i h hi hh
    obtain ⟨h1, e1, -, e3, -⟩ := hget i h hh
    rw [e3]; exact S'.first i h1 hi e1
  · intro i h hh
    obtain ⟨h1, e1, -, e3, -⟩ := hget i h hh
    rw [e3, hat]; exact S.irs i h1 e1
  · rw [hlv]; rfl
  · have : (H.leave pos).irsStack = y :: rest := by rw [hlv]
    rw [this, List.map_cons, hat, hy, ← hrest]
    congr 1
    exact List.map_congr_left fun x _ => hat x
  · intro z hz
    have : (H.leave pos).irsStack = y :: rest := by rw [hlv]
    rw [this] at hz
    exact S'.before z (by rw [hx]; exact List.mem_cons_of_mem _ hz)
  · exact (List.pairwise_cons.mp S.order).2
  · intro j hj
    exact S.bound j (List.mem_cons_of_mem _ hj)
  · intro j hj h hh
    obtain ⟨h1, e1, -, -, e4, -⟩ := hget j h hh
    have hne : j ≠ k := by
      have := (List.pairwise_cons.mp S.order).1 j hj
      omega
    rw [e4, if_neg hne]
    exact S.isOpen j (List.mem_cons_of_mem _ hj) h1 e1
  · intro i h hh hi
    obtain ⟨h1, e1, -, -, e4, -⟩ := hget i h hh
    rw [e4]
    split
    · exact ⟨hpos, hp⟩
    · rename_i hne
      exact S'.isClosed i h1 e1 (fun hm => by
        rcases List.mem_cons.mp hm with e | e
        · exact hne e
        · exact hi e)
  · intro z hz
    obtain ⟨o1, o2, o3, o4⟩ := S'.own z hz
    have hzp := (S.own z hz).2.1
    refine ⟨o1, o2, ?_, ?_⟩
    · intro h hh
      obtain ⟨h1, e1, -, e3, e4, -⟩ := hget _ h hh
      have := o3 h1 e1
      rw [e3, e4]
      refine ⟨this.1, ?_⟩
      split
      · right; omega
      · exact this.2
    · intro j h hj hh
      obtain ⟨h1, e1, -, e3, e4, -⟩ := hget _ h hh
      have := o4 j h1 hj e1
      rw [e3, e4]
      split
      · rename_i e
        subst e
        have := S.isOpen j (by simp) h1 e1
        left
        omega
      · exact this

end Uax.Bidi
