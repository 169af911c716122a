import Verif.BidiParser

/-
The rule dictionary: what its lookups find. The dictionary is one fixed table,
which the kernel computes; lookups in it are proved for all sequences of classes.
-/
namespace Uax.Bidi

/-- Lookup of one more class in a frozen trie. -/
def Trie.child (t : Trie) (p c : Nat) : Option Nat :=
  match t.link[p]? with
  | none => none
  | some l =>
    if l = 0 then some 0
    else match t.ch[(l + c) % 256]? with
      | none => none
      | some a => if a = c then some ((l + c) % 256) else some 0

theorem advance_frozen {t : Trie} (hf : t.frozen = true) (p c n : Nat) :
    t.advance p c n = (t.child p c).map fun q => (q, t) := by
  unfold Trie.advance Trie.child
  cases h : t.link[p]? with
  | none => rfl
  | some l =>
    by_cases hl : l = 0
    · simp [hl, hf]
    · cases ha : t.ch[(l + c) % 256]? with
      | none => simp [hl, ha]
      | some a =>
        by_cases hac : a = c
        · simp [hl, ha, hac]
        · simp [hl, ha, hac, hf]

/-- The first of some rules with at least two classes which is at the front. -/
def longAmong (rs : List Rule) (cs : List Class) : Option Rule :=
  rs.find? fun r => decide (2 ≤ r.lhs.length) && r.lhs.isPrefixOf cs

/-- The first of some rules with a single class which is at the front. -/
def shortAmong (rs : List Rule) (cs : List Class) : Option Rule :=
  rs.find? fun r => decide (r.lhs.length = 1) && r.lhs.isPrefixOf cs

/-- The rules whose place in the dictionary is moved after they have been stored. -/
def lostRules : List Rule := [.N1_5, .N1_6, .N1_8, .N1_9]

/-- The other rules. -/
def keptRules : List Rule := allRules.filter fun r => !(lostRules.contains r)

/-- The rule at a position, as `matchRules` looks it up. -/
def ruleAt (rs : RuleArray) (p : Nat) : Option Rule := if p = 0 then none else (rs[p]?).join

/-- The third class of a lookup -/
def thirdOk (t : Trie) (rs : RuleArray) (a b pb c : Nat) : Bool :=
  match t.child pb (t.correct c) with
  | none => false
  | some pc =>
    if pc = 0 then decide (ruleAt rs pb = longAmong keptRules [a, b, c])
    else decide (pc < rs.length) && decide (t.link[pc]? = some 0) &&
      decide (ruleAt rs pc = longAmong keptRules [a, b, c])

/-- The second class of a lookup -/
def secondOk (t : Trie) (rs : RuleArray) (a pa b : Nat) : Bool :=
  match t.child pa (t.correct b) with
  | none => false
  | some pb =>
    if pb = 0 then keptRules.all fun r => !([a, b].isPrefixOf r.lhs)
    else decide (pb < rs.length) && decide (ruleAt rs pb = longAmong keptRules [a, b]) &&
      (List.range 28).all fun c => thirdOk t rs a b pb c

/-- The first class of a lookup -/
def firstOk (t : Trie) (rs : RuleArray) (a : Nat) : Bool :=
  decide (t.ch[t.correct a]? = some (t.correct a)) && decide (0 < t.correct a) &&
  decide (t.correct a < rs.length) && decide (ruleAt rs (t.correct a) = shortAmong keptRules [a]) &&
  (List.range 28).all fun b => secondOk t rs a (t.correct a) b

/-- All lookups of up to three classes, and that there are no longer ones. -/
def tableOk (t : Trie) (rs : RuleArray) : Bool :=
  t.frozen && decide (0 < rs.length) && (List.range 28).all fun a => firstOk t rs a

theorem table_ok : ∃ t rs, prepareRules = some (t, rs) ∧ tableOk t rs = true := by
  have h : (match prepareRules with | some (t, rs) => tableOk t rs | none => false) = true := by
    decide +kernel
  cases hp : prepareRules with
  | none => rw [hp] at h; exact absurd h Bool.false_ne_true
  | some x => obtain ⟨t, rs⟩ := x; rw [hp] at h; exact ⟨t, rs, rfl, h⟩

theorem lhs_le (r : Rule) : r.lhs.length ≤ 3 := by cases r <;> decide

theorem isPrefixOf_take (l : List Class) : ∀ (cs : List Class) (n : Nat), l.length ≤ n →
    l.isPrefixOf cs = l.isPrefixOf (cs.take n) := by
  induction l with
  | nil => intro cs n _; simp
  | cons x l ih =>
    intro cs n h
    cases cs with
    | nil => simp
    | cons c cs =>
      cases n with
      | zero => simp at h
      | succ n =>
        simp only [List.take_succ_cons, List.isPrefixOf]
        rw [ih cs n (by simpa using h)]

theorem longAmong_take (rs : List Rule) (cs : List Class) : longAmong rs cs = longAmong rs (cs.take 3) := by
  unfold longAmong
  congr 1; funext r
  rw [isPrefixOf_take r.lhs cs 3 (lhs_le r)]

theorem shortAmong_take (rs : List Rule) (cs : List Class) : shortAmong rs cs = shortAmong rs (cs.take 1) := by
  unfold shortAmong
  congr 1; funext r
  by_cases h : r.lhs.length = 1
  · rw [isPrefixOf_take r.lhs cs 1 (by omega)]
  · simp [h]

theorem longAmong_none (a b : Nat) (rest : List Class)
    (h : (keptRules.all fun r => !([a, b].isPrefixOf r.lhs)) = true) :
    longAmong keptRules (a :: b :: rest) = none := by
  unfold longAmong
  rw [List.find?_eq_none]
  intro r hr hp
  have h1 := List.all_eq_true.mp h r hr
  simp only [Bool.and_eq_true, decide_eq_true_eq] at hp
  obtain ⟨hl, hp⟩ := hp
  revert h1
  cases hL : r.lhs with
  | nil => simp [hL] at hl
  | cons x l =>
    cases l with
    | nil => simp [hL] at hl
    | cons y l =>
      rw [hL] at hp
      simp only [List.isPrefixOf, Bool.and_eq_true, beq_iff_eq] at hp
      simp [List.isPrefixOf, hp.1, hp.2.1]

/-- The loop of a lookup after its first class. -/
theorem next_started {t : Trie} (hf : t.frozen = true) (p c : Nat) :
    Iter.next ⟨t, p, true, false⟩ c
      = (t.child p (t.correct c)).map fun q => (q, ⟨t, q, true, decide (q = 0)⟩) := by
  unfold Iter.next
  simp only [Bool.false_eq_true, if_false, Bool.not_true]
  rw [advance_frozen hf]
  cases t.child p (t.correct c) <;> rfl

theorem lookup_table {t : Trie} {rs : RuleArray} (h : tableOk t rs = true) (cs : List Class) (m : Nat)
    (hm : m ≤ 2) (hc : ∀ c ∈ cs, c < 28) :
    matchRules t rs cs m = some (longAmong keptRules cs, shortAmong keptRules cs) := by
  simp only [tableOk, Bool.and_eq_true, decide_eq_true_eq] at h
  obtain ⟨⟨hf, h0⟩, hall⟩ := h
  have fin : ∀ e s, e < rs.length → s < rs.length → matchLoop m t.iterator 0 0 0 cs = some (e, s) →
      matchRules t rs cs m = some (ruleAt rs e, ruleAt rs s) := by
    intro e s he hs hl
    unfold matchRules
    rw [hl]
    simp only [Option.bind_eq_bind, Option.bind_some, List.getElem?_eq_getElem he, List.getElem?_eq_getElem hs]
    simp [ruleAt, List.getElem?_eq_getElem he, List.getElem?_eq_getElem hs]
  cases cs with
  | nil =>
    rw [fin 0 0 h0 h0 rfl]
    show some ((none : Option Rule), (none : Option Rule)) = _
    decide
  | cons a cs =>
    have ha : a < 28 := hc a (by simp)
    have hA := List.all_eq_true.mp hall a (List.mem_range.mpr ha)
    simp only [firstOk, Bool.and_eq_true, decide_eq_true_eq] at hA
    obtain ⟨⟨⟨⟨hch, hpos⟩, hlen⟩, hshort⟩, hall2⟩ := hA
    have amod : a % 256 = a := Nat.mod_eq_of_lt (Nat.lt_trans ha (by decide))
    have first : ∀ cs', matchLoop m t.iterator 0 0 0 (a :: cs')
        = matchLoop m ⟨t, t.correct a, true, false⟩ 1 0 (t.correct a) cs' := by
      intro cs'
      rw [matchLoop]
      have : t.iterator.next (a % 256) = some (t.correct a, ⟨t, t.correct a, true, false⟩) := by
        rw [amod]; simp [Iter.next, Trie.iterator, hch]
      rw [this]
      simp only [Option.bind_eq_bind, Option.bind_some]
      rw [if_neg (by omega), if_pos trivial]
    have hS : shortAmong keptRules (a :: cs) = ruleAt rs (t.correct a) := by
      rw [shortAmong_take, hshort]; rfl
    cases cs with
    | nil =>
      rw [fin 0 (t.correct a) h0 hlen (by rw [first]; rfl), hS]
      congr 2
      show none = longAmong keptRules [a]
      symm
      unfold longAmong
      rw [List.find?_eq_none]
      intro r _ hp
      simp only [Bool.and_eq_true, decide_eq_true_eq] at hp
      have := (List.isPrefixOf_iff_prefix.mp hp.2).length_le
      simp at this; omega
    | cons b cs =>
      have hb : b < 28 := hc b (by simp)
      have bmod : b % 256 = b := Nat.mod_eq_of_lt (Nat.lt_trans hb (by decide))
      have hB := List.all_eq_true.mp hall2 b (List.mem_range.mpr hb)
      unfold secondOk at hB
      cases hcb : t.child (t.correct a) (t.correct b) with
      | none => rw [hcb] at hB; exact absurd hB Bool.false_ne_true
      | some pb =>
        rw [hcb] at hB
        by_cases hpb : pb = 0
        · simp only [hpb, if_true] at hB
          have : matchLoop m t.iterator 0 0 0 (a :: b :: cs) = some (0, t.correct a) := by
            rw [first, matchLoop, bmod, next_started hf, hcb]
            simp [hpb]
          rw [fin 0 _ h0 hlen this, hS, longAmong_none a b cs hB]
          rfl
        · simp only [hpb, if_false, Bool.and_eq_true, decide_eq_true_eq] at hB
          obtain ⟨⟨hpbl, hlong⟩, hall3⟩ := hB
          have second : ∀ cs', matchLoop m t.iterator 0 0 0 (a :: b :: cs')
              = matchLoop m ⟨t, pb, true, false⟩ 2 pb (t.correct a) cs' := by
            intro cs'
            rw [first, matchLoop, bmod, next_started hf, hcb]
            simp only [Option.map_some, Option.bind_eq_bind, Option.bind_some]
            rw [if_neg hpb, if_neg (by omega), if_pos (by omega)]
            simp [hpb]
          cases cs with
          | nil =>
            rw [fin pb _ hpbl hlen (by rw [second]; rfl), hS, hlong]
          | cons c cs =>
            have hcc : c < 28 := hc c (by simp)
            have cmod : c % 256 = c := Nat.mod_eq_of_lt (Nat.lt_trans hcc (by decide))
            have hC := List.all_eq_true.mp hall3 c (List.mem_range.mpr hcc)
            unfold thirdOk at hC
            rw [longAmong_take]
            show _ = some (longAmong keptRules [a, b, c], _)
            cases hcc : t.child pb (t.correct c) with
            | none => rw [hcc] at hC; exact absurd hC Bool.false_ne_true
            | some pc =>
              rw [hcc] at hC
              by_cases hpc : pc = 0
              · simp only [hpc, if_true, decide_eq_true_eq] at hC
                have : matchLoop m t.iterator 0 0 0 (a :: b :: c :: cs) = some (pb, t.correct a) := by
                  rw [second, matchLoop, cmod, next_started hf, hcc]
                  simp [hpc]
                rw [fin pb _ hpbl hlen this, hS, hC]
              · simp only [hpc, if_false, Bool.and_eq_true, decide_eq_true_eq] at hC
                obtain ⟨⟨hpcl, hlink⟩, hlong3⟩ := hC
                have third : matchLoop m t.iterator 0 0 0 (a :: b :: c :: cs) = some (pc, t.correct a) := by
                  rw [second, matchLoop, cmod, next_started hf, hcc]
                  simp only [Option.map_some, Option.bind_eq_bind, Option.bind_some]
                  rw [if_neg hpc, if_neg (by omega), if_pos (by omega)]
                  cases cs with
                  | nil => rfl
                  | cons d cs =>
                    have hd : d < 28 := hc d (by simp)
                    have : t.child pc (t.correct (d % 256)) = some 0 := by simp [Trie.child, hlink]
                    rw [matchLoop]
                    simp only [hpc, decide_false]
                    rw [next_started hf, this]
                    simp
                rw [fin pc _ hpcl hlen third, hS, hlong3]

/-- What the dictionary of the parser finds. -/
theorem lookupRules_eq (cs : List Class) (m : Nat) (hm : m ≤ 2) (hc : ∀ c ∈ cs, c < 28) :
    lookupRules cs m = some (longAmong keptRules cs, shortAmong keptRules cs) := by
  obtain ⟨t, rs, hp, h⟩ := table_ok
  unfold lookupRules
  rw [hp]
  exact lookup_table h cs m hm hc

end Uax.Bidi
