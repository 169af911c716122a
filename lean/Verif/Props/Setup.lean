import Verif.Setup
import Verif.Props.ClassTables

/-! C60: set-up of the class tables is safe for concurrent use. -/

namespace Uax.Setup

/-! ### Specification -/

/-- The packages for which a call makes the tables, according to the documentation. -/
def sets : Call → List Pkg
  | .setupEmojisClasses => [.emoji]
  | .setupGraphemeClasses => [.grapheme, .emoji]
  | .setupUAX29Classes => [.word, .emoji]
  | .setupClasses => [.line]
  | .newWordBreaker => [.word, .emoji]
  | .newLineWrap => [.line]
  | .stringFromString => [.grapheme, .emoji]
  | _ => []

/-- The packages whose tables a call looks into. -/
def needs : Call → List Pkg
  | .classFor p _ => [p]
  | .graphemeClass _ => [.grapheme, .emoji]
  | .wordClass _ => [.word, .emoji]
  | _ => []

/-- Calls that look up a class. -/
def IsLookup : Call → Prop
  | .classFor _ _ => True
  | .graphemeClass _ => True
  | .wordClass _ => True
  | _ => False

/-- The first class with the rune, in the complete tables. -/
def classIn (S : Source) (p : Pkg) (r : Int) : Res :=
  match (List.range (size S p)).find? fun c => S.is p c r with
  | some c => .cls c
  | none => .other

def withPict (S : Source) (r : Int) : Res → Res
  | .other => if S.is .emoji 5 r then .pict else .other
  | res => res

/-- What a look-up has to give. -/
def expected (S : Source) : Call → Res
  | .classFor p r => if p ≠ .emoji ∧ r = 0 then .eot else classIn S p r
  | .graphemeClass r => if r = 0 then .eot else withPict S r (classIn S .grapheme r)
  | .wordClass r => if r = 0 then .eot else withPict S r (classIn S .word r)
  | _ => .returned

/-- In these calls (the last one first) the tables of `p` were made. -/
def SetUp (p : Pkg) (log : List (Call × Res)) : Prop := ∃ e ∈ log, e.2 = .returned ∧ p ∈ sets e.1

/-- Every class of uax14 gets a table. -/
def Complete (S : Source) : Prop := ∀ c, c ∈ S.lineOrder ↔ c < S.lineSize

/-! ### Lemmas -/

theorem order_complete {S : Source} (hS : Complete S) (p : Pkg) : ∀ c, c < size S p → c ∈ order S p := by
  cases p with
  | emoji => simp only [size, order]; decide
  | grapheme => simp only [size, order]; decide
  | word => simp only [size, order]; decide
  | line => exact fun c h => (hS c).mpr h

/-- The slots after `k` moves of the function of a `Once`. -/
def slotsAt (S : Source) (p : Pkg) : Nat → Option (List (Option (Int → Bool)))
  | 0 => none
  | k + 1 => some (((order S p).take k).foldl (fun l j => l.set j (some (S.is p j))) (List.replicate (size S p) none))

theorem foldl_set (S : Source) (p : Pkg) : ∀ (o : List Nat) (l : List (Option (Int → Bool))) (c : Nat), c < l.length →
    (o.foldl (fun l j => l.set j (some (S.is p j))) l)[c]? = if c ∈ o then some (some (S.is p c)) else l[c]? := by
  intro o
  induction o with
  | nil => intro l c _; simp
  | cons j o ih =>
    intro l c hc
    rw [List.foldl_cons, ih _ c (by simpa using hc)]
    by_cases h1 : c ∈ o
    · simp [h1]
    · rw [if_neg h1, List.getElem?_set]
      by_cases h2 : j = c
      · subst h2; simp [hc]
      · have h3 : c ∉ j :: o := by simp only [List.mem_cons, not_or]; exact ⟨fun h => h2 h.symm, h1⟩
        rw [if_neg h2, if_neg h3]

theorem slots_full {S : Source} (hS : Complete S) (p : Pkg) (c : Nat) (hc : c < size S p) :
    ((slotsAt S p ((order S p).length + 1)).bind fun l => l[c]?) = some (some (S.is p c)) := by
  show (((order S p).take (order S p).length).foldl _ _)[c]? = _
  rw [List.take_length, foldl_set _ _ _ _ _ (by simpa using hc), if_pos (order_complete hS p c hc)]

def Done (v : Pkg → Vars) (p : Pkg) : Prop := (v p).once = .done

/-- What holds of the variables of a package. -/
def GInv (S : Source) (s : State) (p : Pkg) : Prop :=
  match (s.vars p).once with
  | .idle => (s.vars p).slots = none ∧ (s.vars p).made = 0 ∧ ∀ i c k t, s.pc i ≠ .body c p k t
  | .running => ∃ i c k t, s.pc i = .body c p k t ∧ (s.vars p).slots = slotsAt S p k ∧ k ≤ (order S p).length + 1 ∧
      (s.vars p).made = min k 1 ∧ ∀ j c' k' t', s.pc j = .body c' p k' t' → j = i
  | .done => (s.vars p).slots = slotsAt S p ((order S p).length + 1) ∧ (s.vars p).made = 1 ∧ ∀ i c k t, s.pc i ≠ .body c p k t

def GoodLog (S : Source) : List (Call × Res) → Prop
  | [] => True
  | (c, res) :: log => (res = .returned → ¬ IsLookup c) ∧ (IsLookup c → (∀ p ∈ needs c, SetUp p log) → res = expected S c) ∧ GoodLog S log

def Scans (c : Call) (p : Pkg) (r : Int) : Prop :=
  (c = .classFor p r ∧ (p = .emoji ∨ r ≠ 0)) ∨ (c = .graphemeClass r ∧ p = .grapheme ∧ r ≠ 0) ∨ (c = .wordClass r ∧ p = .word ∧ r ≠ 0)

/-- What holds of a goroutine. -/
def PInv (S : Source) (v : Pkg → Vars) (log : List (Call × Res)) : Pc → Prop
  | .idle => True
  | .dead => True
  | .doing c todo => ¬ IsLookup c ∧ ∀ q ∈ sets c, q ∉ todo → Done v q
  | .body c p _ todo => ¬ IsLookup c ∧ ∀ q ∈ sets c, q ∉ p :: todo → Done v q
  | .scanning c p r k => Scans c p r ∧ k ≤ size S p ∧ ((∀ q ∈ needs c, SetUp q log) → ∀ j, j < k → S.is p j r = false)
  | .askPict c r => (c = .graphemeClass r ∧ r ≠ 0 ∧ ((∀ q ∈ needs c, SetUp q log) → ∀ j, j < size S .grapheme → S.is .grapheme j r = false)) ∨
      (c = .wordClass r ∧ r ≠ 0 ∧ ((∀ q ∈ needs c, SetUp q log) → ∀ j, j < size S .word → S.is .word j r = false))
  | .ret c res => (res = .returned → ¬ IsLookup c ∧ ∀ q ∈ sets c, Done v q) ∧ (IsLookup c → (∀ q ∈ needs c, SetUp q log) → res = expected S c)

def TInv (S : Source) (v : Pkg → Vars) (pc : Pc) (log : List (Call × Res)) : Prop :=
  (∀ p, SetUp p log → Done v p) ∧ GoodLog S log ∧ PInv S v log pc

theorem tinv_mono {S : Source} {v v' : Pkg → Vars} {pc : Pc} {log : List (Call × Res)} (hm : ∀ p, Done v p → Done v' p) (h : TInv S v pc log) :
    TInv S v' pc log := by
  obtain ⟨h1, h2, h3⟩ := h
  refine ⟨fun p hp => hm p (h1 p hp), h2, ?_⟩
  cases pc with
  | idle => trivial
  | dead => trivial
  | doing c todo => exact ⟨h3.1, fun q a b => hm q (h3.2 q a b)⟩
  | body c p k todo => exact ⟨h3.1, fun q a b => hm q (h3.2 q a b)⟩
  | scanning c p r k => exact h3
  | askPict c r => exact h3
  | ret c res => exact ⟨fun e => ⟨(h3.1 e).1, fun q a => hm q ((h3.1 e).2 q a)⟩, h3.2⟩

@[simp] theorem upd_same {α β : Type} [DecidableEq α] (f : α → β) (a : α) (b : β) : upd f a b a = b := by simp [upd]

theorem upd_other {α β : Type} [DecidableEq α] (f : α → β) {a x : α} (b : β) (h : x ≠ a) : upd f a b x = f x := by simp [upd, h]

theorem ginv_same {S : Source} {s s' : State} {p : Pkg} (hv : s'.vars p = s.vars p)
    (hb : ∀ j c k t, s'.pc j = .body c p k t ↔ s.pc j = .body c p k t) (h : GInv S s p) : GInv S s' p := by
  unfold GInv at h ⊢
  rw [hv]
  cases hc : (s.vars p).once with
  | idle =>
    rw [hc] at h
    exact ⟨h.1, h.2.1, fun i c k t e => h.2.2 i c k t ((hb i c k t).mp e)⟩
  | running =>
    rw [hc] at h
    obtain ⟨i, c, k, t, h1, h2, h3, h4, h5⟩ := h
    exact ⟨i, c, k, t, (hb i c k t).mpr h1, h2, h3, h4, fun j c' k' t' e => h5 j c' k' t' ((hb j c' k' t').mp e)⟩
  | done =>
    rw [hc] at h
    exact ⟨h.1, h.2.1, fun i c k t e => h.2.2 i c k t ((hb i c k t).mp e)⟩

/-- A move which changes only what goroutine `i` is going to do, inside of no function of a `Once`. -/
theorem body_upd {pc : Nat → Pc} {i : Nat} {new : Pc} {p : Pkg} (h1 : ∀ c k t, pc i ≠ .body c p k t) (h2 : ∀ c k t, new ≠ .body c p k t)
    (j : Nat) (c : Call) (k : Nat) (t : List Pkg) : upd pc i new j = .body c p k t ↔ pc j = .body c p k t := by
  by_cases e : j = i
  · subst e
    rw [upd_same]
    exact ⟨fun h => absurd h (h2 c k t), fun h => absurd h (h1 c k t)⟩
  · rw [upd_other _ _ e]

/-- The invariant. -/
def Inv (S : Source) (s : State) : Prop := (∀ p, GInv S s p) ∧ ∀ i, TInv S s.vars (s.pc i) (s.log i)

theorem inv_init (S : Source) : Inv S init := by
  refine ⟨fun p => ⟨rfl, rfl, fun i c k t h => by cases h⟩, fun i => ⟨?_, trivial, trivial⟩⟩
  rintro p ⟨e, he, -⟩
  cases he

/-- A local move. -/
theorem inv_local {S : Source} {s : State} (h : Inv S s) (i : Nat) (new : Pc) (log : List (Call × Res))
    (h1 : ∀ c p k t, s.pc i ≠ .body c p k t) (h2 : ∀ c p k t, new ≠ .body c p k t) (h3 : TInv S s.vars new log) :
    Inv S { s with pc := upd s.pc i new, log := upd s.log i log } := by
  refine ⟨fun p => ginv_same (s := s) rfl (body_upd (fun c k t => h1 c p k t) (fun c k t => h2 c p k t)) (h.1 p), fun j => ?_⟩
  by_cases e : j = i
  · subst e
    simp only [upd_same]
    exact h3
  · simp only [upd_other _ _ e]
    exact h.2 j

theorem inv_local' {S : Source} {s : State} (h : Inv S s) (i : Nat) (new : Pc)
    (h1 : ∀ c p k t, s.pc i ≠ .body c p k t) (h2 : ∀ c p k t, new ≠ .body c p k t) (h3 : PInv S s.vars (s.log i) new) :
    Inv S { s with pc := upd s.pc i new } := by
  have := inv_local h i new (s.log i) h1 h2 ⟨(h.2 i).1, (h.2 i).2.1, h3⟩
  have e : upd s.log i (s.log i) = s.log := by
    funext j
    by_cases e : j = i
    · subst e; rw [upd_same]
    · rw [upd_other _ _ e]
  rw [e] at this
  exact this

theorem begin_inv (S : Source) (v : Pkg → Vars) (log : List (Call × Res)) (c : Call) :
    PInv S v log (begin c) ∧ ∀ c' p k t, begin c ≠ .body c' p k t := by
  cases c with
  | classFor p r =>
    show PInv S v log (if p ≠ .emoji ∧ r = 0 then .ret (.classFor p r) .eot else .scanning (.classFor p r) p r 0) ∧ ∀ c' q k t,
      (if p ≠ .emoji ∧ r = 0 then .ret (.classFor p r) .eot else .scanning (.classFor p r) p r 0 : Pc) ≠ .body c' q k t
    split
    · rename_i h
      refine ⟨⟨(fun e => nomatch e), fun _ _ => ?_⟩, fun _ _ _ _ e => by cases e⟩
      simp [expected, h]
    · rename_i h
      refine ⟨⟨Or.inl ⟨rfl, ?_⟩, Nat.zero_le _, fun _ j hj => absurd hj (Nat.not_lt_zero j)⟩, fun _ _ _ _ e => by cases e⟩
      by_cases hp : p = .emoji
      · exact Or.inl hp
      · exact Or.inr fun hr => h ⟨hp, hr⟩
  | graphemeClass r =>
    show PInv S v log (if r = 0 then .ret (.graphemeClass r) .eot else .scanning (.graphemeClass r) .grapheme r 0) ∧ ∀ c' q k t,
      (if r = 0 then .ret (.graphemeClass r) .eot else .scanning (.graphemeClass r) .grapheme r 0 : Pc) ≠ .body c' q k t
    split
    · rename_i h
      refine ⟨⟨(fun e => nomatch e), fun _ _ => ?_⟩, fun _ _ _ _ e => by cases e⟩
      simp [expected, h]
    · rename_i h
      exact ⟨⟨Or.inr (Or.inl ⟨rfl, rfl, h⟩), Nat.zero_le _, fun _ j hj => absurd hj (Nat.not_lt_zero j)⟩, fun _ _ _ _ e => by cases e⟩
  | wordClass r =>
    show PInv S v log (if r = 0 then .ret (.wordClass r) .eot else .scanning (.wordClass r) .word r 0) ∧ ∀ c' q k t,
      (if r = 0 then .ret (.wordClass r) .eot else .scanning (.wordClass r) .word r 0 : Pc) ≠ .body c' q k t
    split
    · rename_i h
      refine ⟨⟨(fun e => nomatch e), fun _ _ => ?_⟩, fun _ _ _ _ e => by cases e⟩
      simp [expected, h]
    · rename_i h
      exact ⟨⟨Or.inr (Or.inr ⟨rfl, rfl, h⟩), Nat.zero_le _, fun _ j hj => absurd hj (Nat.not_lt_zero j)⟩, fun _ _ _ _ e => by cases e⟩
  | _ => exact ⟨⟨id, fun q h1 h2 => absurd h1 h2⟩, fun _ _ _ _ e => by cases e⟩

theorem expected_classFor (S : Source) (p : Pkg) (r : Int) : expected S (.classFor p r) = if p ≠ .emoji ∧ r = 0 then .eot else classIn S p r := rfl
theorem expected_grapheme (S : Source) (r : Int) : expected S (.graphemeClass r) = if r = 0 then .eot else withPict S r (classIn S .grapheme r) := rfl
theorem expected_word (S : Source) (r : Int) : expected S (.wordClass r) = if r = 0 then .eot else withPict S r (classIn S .word r) := rfl

theorem classIn_first (S : Source) (p : Pkg) (r : Int) (k : Nat) (hk : k < size S p) (hr : S.is p k r = true) (hf : ∀ j, j < k → S.is p j r = false) :
    classIn S p r = .cls k := by
  unfold classIn
  have : (List.range (size S p)).find? (fun c => S.is p c r) = some k := by
    rw [List.find?_range_eq_some]
    exact ⟨hr, by simpa using hk, fun j hj => by simp [hf j hj]⟩
  rw [this]

theorem classIn_none (S : Source) (p : Pkg) (r : Int) (hf : ∀ j, j < size S p → S.is p j r = false) : classIn S p r = .other := by
  unfold classIn
  have : (List.range (size S p)).find? (fun c => S.is p c r) = none := by
    rw [List.find?_eq_none]
    intro c hc
    rw [hf c (List.mem_range.mp hc)]
    decide
  rw [this]

/-- The slots of a package that was set up. -/
theorem slots_done {S : Source} (hS : Complete S) {s : State} (h : Inv S s) {p : Pkg} (hd : Done s.vars p) (c : Nat) (hc : c < size S p) :
    ((s.vars p).slots.bind fun l => l[c]?) = some (some (S.is p c)) := by
  have := h.1 p
  unfold GInv at this
  rw [hd] at this
  rw [this.1]
  exact slots_full hS p c hc

theorem scans_needs {c : Call} {p : Pkg} {r : Int} (h : Scans c p r) : IsLookup c ∧ p ∈ needs c := by
  rcases h with ⟨rfl, -⟩ | ⟨rfl, rfl, -⟩ | ⟨rfl, rfl, -⟩
  · exact ⟨trivial, by simp [needs]⟩
  · exact ⟨trivial, by simp [needs]⟩
  · exact ⟨trivial, by simp [needs]⟩

theorem scans_expected {S : Source} {c : Call} {p : Pkg} {r : Int} (h : Scans c p r) (k : Nat) (e : classIn S p r = .cls k) : expected S c = .cls k := by
  rcases h with ⟨rfl, h⟩ | ⟨rfl, rfl, h⟩ | ⟨rfl, rfl, h⟩
  · rw [expected_classFor, if_neg (by rintro ⟨a, b⟩; rcases h with h | h; exact a h; exact h b), e]
  · rw [expected_grapheme, if_neg h, e]; rfl
  · rw [expected_word, if_neg h, e]; rfl

theorem setUp_cons {p : Pkg} {e : Call × Res} {log : List (Call × Res)} (h : SetUp p (e :: log)) : (e.2 = .returned ∧ p ∈ sets e.1) ∨ SetUp p log := by
  obtain ⟨x, hx, h⟩ := h
  rcases List.mem_cons.mp hx with rfl | hx
  · exact Or.inl h
  · exact Or.inr ⟨x, hx, h⟩

theorem advance_inv {S : Source} (hS : Complete S) {s s' : State} {i : Nat} (h : Inv S s) (hs : advance S i s = some s') : Inv S s' := by
  have hT := h.2 i
  obtain ⟨t1, t2, t3⟩ := hT
  unfold advance at hs
  cases hpc : s.pc i with
  | idle => rw [hpc] at hs; cases hs
  | dead => rw [hpc] at hs; cases hs
  | ret c res =>
    rw [hpc] at hs t3
    cases hs
    refine inv_local h i _ _ (by rw [hpc]; intro _ _ _ _ e; cases e) (by intro _ _ _ _ e; split at e <;> cases e) ?_
    obtain ⟨r1, r2⟩ := t3
    refine ⟨?_, ⟨fun e => (r1 e).1, fun hl hn => r2 hl hn, t2⟩, by split <;> trivial⟩
    intro p hp
    rcases setUp_cons hp with ⟨e1, e2⟩ | e
    · exact (r1 e1).2 p e2
    · exact t1 p e
  | doing c todo =>
    rw [hpc] at hs t3
    obtain ⟨r1, r2⟩ := t3
    cases todo with
    | nil =>
      cases hs
      exact inv_local' h i _ (by rw [hpc]; intro _ _ _ _ e; cases e) (by intro _ _ _ _ e; cases e)
        ⟨fun _ => ⟨r1, fun q hq => r2 q hq (by simp)⟩, fun hl => absurd hl r1⟩
    | cons p todo =>
      simp only at hs
      cases ho : (s.vars p).once with
      | running => rw [ho] at hs; cases hs
      | done =>
        rw [ho] at hs
        cases hs
        refine inv_local' h i _ (by rw [hpc]; intro _ _ _ _ e; cases e) (by intro _ _ _ _ e; cases e) ⟨r1, fun q hq hn => ?_⟩
        by_cases e : q = p
        · subst e; exact ho
        · exact r2 q hq (by simp [e, hn])
      | idle =>
        rw [ho] at hs
        cases hs
        have hg := h.1 p
        unfold GInv at hg
        rw [ho] at hg
        obtain ⟨g1, g2, g3⟩ := hg
        have hm : ∀ q, Done s.vars q → Done (upd s.vars p { s.vars p with once := .running }) q := by
          intro q hq
          by_cases e : q = p
          · subst e; unfold Done at hq; rw [ho] at hq; cases hq
          · unfold Done; rw [upd_other _ _ e]; exact hq
        refine ⟨fun q => ?_, fun j => ?_⟩
        · by_cases e : q = p
          · subst e
            unfold GInv
            simp only [upd_same]
            refine ⟨i, c, 0, todo, upd_same _ _ _, g1, Nat.zero_le _, by simpa using g2, ?_⟩
            intro j c' k' t' hj
            apply Classical.byContradiction
            intro hne
            rw [upd_other _ _ hne] at hj
            exact g3 j c' k' t' hj
          · refine ginv_same (upd_other _ _ e) (fun j c' k' t' => ?_) (h.1 q)
            exact body_upd (by rw [hpc]; intro _ _ _ e; cases e) (by intro _ _ _ e'; cases e'; exact e rfl) j c' k' t'
        · by_cases e : j = i
          · subst e
            simp only [upd_same]
            refine tinv_mono hm ⟨t1, t2, r1, fun q hq hn => r2 q hq hn⟩
          · simp only [upd_other _ _ e]
            exact tinv_mono hm (h.2 j)
  | body c p k todo =>
    rw [hpc] at hs t3
    obtain ⟨r1, r2⟩ := t3
    have hrun : (s.vars p).once = .running := by
      have hg := h.1 p
      unfold GInv at hg
      cases ho : (s.vars p).once with
      | idle => rw [ho] at hg; exact absurd hpc (hg.2.2 i c k todo)
      | running => rfl
      | done => rw [ho] at hg; exact absurd hpc (hg.2.2 i c k todo)
    have hg := h.1 p
    unfold GInv at hg
    rw [hrun] at hg
    obtain ⟨i', c0, k0, t0, g1, g2, g3, g4, g5⟩ := hg
    have hi : i = i' := g5 i c k todo hpc
    subst hi
    rw [hpc] at g1
    cases g1
    -- the common part
    have step : ∀ (v : Vars) (k' : Nat), v.once = .running → v.slots = slotsAt S p k' → k' ≤ (order S p).length + 1 → v.made = min k' 1 →
        Inv S { s with vars := upd s.vars p v, pc := upd s.pc i (.body c p k' todo) } := by
      intro v k' v1 v2 v3 v4
      have hm : ∀ q, Done s.vars q → Done (upd s.vars p v) q := by
        intro q hq
        by_cases e : q = p
        · subst e; unfold Done at hq; rw [hrun] at hq; cases hq
        · unfold Done; rw [upd_other _ _ e]; exact hq
      refine ⟨fun q => ?_, fun j => ?_⟩
      · by_cases e : q = p
        · subst e
          unfold GInv
          simp only [upd_same, v1]
          refine ⟨i, c, k', todo, upd_same _ _ _, v2, v3, v4, ?_⟩
          intro j c' k'' t' hj
          apply Classical.byContradiction
          intro hne
          rw [upd_other _ _ hne] at hj
          exact hne (g5 j c' k'' t' hj)
        · refine ginv_same (upd_other _ _ e) (fun j c' k'' t' => ?_) (h.1 q)
          exact body_upd (by rw [hpc]; intro _ _ _ e'; cases e'; exact e rfl) (by intro _ _ _ e'; cases e'; exact e rfl) j c' k'' t'
      · by_cases e : j = i
        · subst e
          simp only [upd_same]
          exact tinv_mono hm ⟨t1, t2, r1, r2⟩
        · simp only [upd_other _ _ e]
          exact tinv_mono hm (h.2 j)
    cases k with
    | zero =>
      cases hs
      exact step _ 1 hrun rfl (by omega) (by simp [g4])
    | succ k =>
      simp only at hs
      cases hk : (order S p)[k]? with
      | some j =>
        rw [hk] at hs
        cases hs
        have hlt := (List.getElem?_eq_some_iff.mp hk).1
        refine step _ (k + 2) hrun ?_ (by omega) (by simp [g4])
        show (s.vars p).slots.map _ = _
        rw [g2]
        show some _ = some _
        rw [List.take_add_one, hk]
        simp
      | none =>
        rw [hk] at hs
        cases hs
        have hlen : k = (order S p).length := by
          have := List.getElem?_eq_none_iff.mp hk
          omega
        subst hlen
        have hm : ∀ q, Done s.vars q → Done (upd s.vars p { s.vars p with once := .done }) q := by
          intro q hq
          by_cases e : q = p
          · subst e; unfold Done; rw [upd_same]
          · unfold Done; rw [upd_other _ _ e]; exact hq
        refine ⟨fun q => ?_, fun j => ?_⟩
        · by_cases e : q = p
          · subst e
            unfold GInv
            simp only [upd_same]
            refine ⟨g2, by simp [g4], ?_⟩
            intro j c' k'' t' hj
            by_cases e : j = i
            · subst e; rw [upd_same] at hj; cases hj
            · rw [upd_other _ _ e] at hj
              exact e (g5 j c' k'' t' hj)
          · refine ginv_same (upd_other _ _ e) (fun j c' k'' t' => ?_) (h.1 q)
            exact body_upd (by rw [hpc]; intro _ _ _ e'; cases e'; exact e rfl) (by intro _ _ _ e'; cases e') j c' k'' t'
        · by_cases e : j = i
          · subst e
            simp only [upd_same]
            refine ⟨fun q hq => hm q (t1 q hq), t2, r1, fun q hq hn => ?_⟩
            by_cases e : q = p
            · subst e; unfold Done; rw [upd_same]
            · exact hm q (r2 q hq (by simp [e, hn]))
          · simp only [upd_other _ _ e]
            exact tinv_mono hm (h.2 j)
  | scanning c p r k =>
    rw [hpc] at hs t3
    obtain ⟨r1, r2, r3⟩ := t3
    obtain ⟨n1, n2⟩ := scans_needs r1
    have nb : ∀ c' p' k' t, s.pc i ≠ .body c' p' k' t := by rw [hpc]; intro _ _ _ _ e; cases e
    simp only at hs
    by_cases hk : k = size S p
    · rw [if_pos hk] at hs
      cases hs
      subst hk
      rcases r1 with ⟨rfl, h'⟩ | ⟨rfl, rfl, h'⟩ | ⟨rfl, rfl, h'⟩
      · refine inv_local' h i _ nb (by intro _ _ _ _ e; cases e) ⟨(fun e => nomatch e), fun _ hn => ?_⟩
        rw [expected_classFor, if_neg (by rintro ⟨a, b⟩; rcases h' with h' | h'; exact a h'; exact h' b), classIn_none S p r (r3 hn)]
      · exact inv_local' h i _ nb (by intro _ _ _ _ e; cases e) (Or.inl ⟨rfl, h', r3⟩)
      · exact inv_local' h i _ nb (by intro _ _ _ _ e; cases e) (Or.inr ⟨rfl, h', r3⟩)
    · rw [if_neg hk] at hs
      have hlt : k < size S p := by omega
      have hfull : (∀ q ∈ needs c, SetUp q (s.log i)) → ((s.vars p).slots.bind fun l => l[k]?) = some (some (S.is p k)) :=
        fun hn => slots_done hS h (t1 p (hn p n2)) k hlt
      cases hsl : ((s.vars p).slots.bind fun l => l[k]?) with
      | none =>
        rw [hsl] at hs
        cases hs
        refine inv_local' h i _ nb (by intro _ _ _ _ e; cases e) ⟨(fun e => nomatch e), fun _ hn => ?_⟩
        rw [hfull hn] at hsl; cases hsl
      | some o =>
        cases o with
        | none =>
          rw [hsl] at hs
          cases hs
          refine inv_local' h i _ nb (by intro _ _ _ _ e; cases e) ⟨r1, hlt, fun hn => ?_⟩
          rw [hfull hn] at hsl; cases hsl
        | some f =>
          rw [hsl] at hs
          cases hs
          by_cases hf : f r = true
          · rw [if_pos hf]
            refine inv_local' h i _ nb (by intro _ _ _ _ e; cases e) ⟨(fun e => nomatch e), fun _ hn => ?_⟩
            rw [hfull hn] at hsl
            cases hsl
            rw [scans_expected r1 k (classIn_first S p r k hlt hf (r3 hn))]
          · rw [if_neg hf]
            refine inv_local' h i _ nb (by intro _ _ _ _ e; cases e) ⟨r1, hlt, fun hn j hj => ?_⟩
            rw [hfull hn] at hsl
            cases hsl
            by_cases e : j = k
            · subst e; exact Bool.eq_false_iff.mpr hf
            · exact r3 hn j (by omega)
  | askPict c r =>
    rw [hpc] at hs t3
    have nb : ∀ c' p' k' t, s.pc i ≠ .body c' p' k' t := by rw [hpc]; intro _ _ _ _ e; cases e
    have hem : Pkg.emoji ∈ needs c ∧ ((∀ q ∈ needs c, SetUp q (s.log i)) → expected S c = if S.is .emoji 5 r then .pict else .other) := by
      rcases t3 with ⟨rfl, h1, h2⟩ | ⟨rfl, h1, h2⟩
      · refine ⟨by simp [needs], fun hn => ?_⟩
        rw [expected_grapheme, if_neg h1, classIn_none S _ r (h2 hn)]
        rfl
      · refine ⟨by simp [needs], fun hn => ?_⟩
        rw [expected_word, if_neg h1, classIn_none S _ r (h2 hn)]
        rfl
    have hfull : (∀ q ∈ needs c, SetUp q (s.log i)) → ((s.vars .emoji).slots.bind fun l => l[5]?) = some (some (S.is .emoji 5)) :=
      fun hn => slots_done hS h (t1 _ (hn _ hem.1)) 5 (by simp [size])
    simp only at hs
    cases hsl : ((s.vars .emoji).slots.bind fun l => l[5]?) with
    | none =>
      rw [hsl] at hs
      cases hs
      refine inv_local' h i _ nb (by intro _ _ _ _ e; cases e) ⟨(fun e => nomatch e), fun _ hn => ?_⟩
      rw [hfull hn] at hsl; cases hsl
    | some o =>
      cases o with
      | none =>
        rw [hsl] at hs
        cases hs
        refine inv_local' h i _ nb (by intro _ _ _ _ e; cases e) ⟨(fun e => nomatch e), fun _ hn => ?_⟩
        rw [hfull hn] at hsl; cases hsl
      | some f =>
        rw [hsl] at hs
        cases hs
        refine inv_local' h i _ nb (by intro _ _ _ _ e; cases e) ⟨(fun e => by split at e <;> cases e), fun _ hn => ?_⟩
        rw [hfull hn] at hsl
        cases hsl
        rw [hem.2 hn]

theorem move_inv {S : Source} (hS : Complete S) {s s' : State} {m : Move} (h : Inv S s) (hm : move S s m = some s') : Inv S s' := by
  cases m with
  | go i => exact advance_inv hS h hm
  | call i c =>
    change (if s.pc i = .idle then some { s with pc := upd s.pc i (begin c) } else none) = some s' at hm
    split at hm
    · rename_i hi
      cases hm
      exact inv_local' h i _ (by rw [hi]; intro _ _ _ _ e; cases e) (begin_inv S s.vars (s.log i) c).2 (begin_inv S s.vars (s.log i) c).1
    · cases hm

theorem moves_inv {S : Source} (hS : Complete S) : ∀ (ms : List Move) (s s' : State), Inv S s → ms.foldlM (move S) s = some s' → Inv S s' := by
  intro ms
  induction ms with
  | nil => intro s0 s h0 hs; cases hs; exact h0
  | cons m ms ih =>
    intro s0 s h0 hs
    rw [List.foldlM_cons] at hs
    cases hm : move S s0 m with
    | none => rw [hm] at hs; cases hs
    | some s1 =>
      rw [hm] at hs
      exact ih s1 s (move_inv hS h0 hm) hs

theorem reached_inv {S : Source} (hS : Complete S) {s : State} (h : Reached S s) : Inv S s := by
  obtain ⟨ms, h⟩ := h
  exact moves_inv hS ms _ s (inv_init S) h

/-- Moves do not look into the logs. -/
theorem advance_log (S : Source) (i : Nat) (s : State) (L : Nat → List (Call × Res)) :
    advance S i { s with log := L } =
      (advance S i s).map fun s' => { s' with log := match s.pc i with | .ret c res => upd L i ((c, res) :: L i) | _ => L } := by
  unfold advance
  cases s.pc i with
  | doing c todo => cases todo with
    | nil => rfl
    | cons p todo => simp only; cases (s.vars p).once <;> rfl
  | body c p k todo => cases k with
    | zero => rfl
    | succ k => simp only; cases (order S p)[k]? <;> rfl
  | scanning c p r k =>
    simp only
    split
    · rfl
    · cases ((s.vars p).slots.bind fun l => l[k]?) with
      | none => rfl
      | some o => cases o <;> rfl
  | askPict c r =>
    simp only
    cases ((s.vars .emoji).slots.bind fun l => l[5]?) with
    | none => rfl
    | some o => cases o <;> rfl
  | _ => rfl

theorem advance_entry {S : Source} {i : Nat} {s s' : State} (h : advance S i s = some s') :
    s'.log = match s.pc i with | .ret c res => upd s.log i ((c, res) :: s.log i) | _ => s.log := by
  have := advance_log S i s s.log
  have e : ({ s with log := s.log } : State) = s := rfl
  rw [e, h] at this
  simp only [Option.map_some, Option.some.injEq] at this
  rw [this]

/-- The states `s` and `t` differ only in the beginning of the log of goroutine `i`. -/
def Alike (i : Nat) (l b : List (Call × Res)) (s t : State) : Prop :=
  t.vars = s.vars ∧ t.pc = s.pc ∧ ∃ new, s.log i = new ++ l ∧ t.log i = new ++ b

theorem alike_move {S : Source} {i : Nat} {l b : List (Call × Res)} {s t s' : State} {m : Move} (h : Alike i l b s t)
    (hm : move S s m = some s') (hl : ∀ j, j ≠ i → s.log j = t.log j) :
    ∃ t', move S t m = some t' ∧ Alike i l b s' t' ∧ ∀ j, j ≠ i → s'.log j = t'.log j := by
  obtain ⟨h1, h2, new, h3, h4⟩ := h
  cases m with
  | call j c =>
    change (if s.pc j = .idle then some { s with pc := upd s.pc j (begin c) } else none) = some s' at hm
    split at hm
    · rename_i hi
      cases hm
      refine ⟨{ t with pc := upd t.pc j (begin c) }, ?_, ⟨h1, by rw [h2], new, h3, h4⟩, hl⟩
      show (if t.pc j = .idle then some { t with pc := upd t.pc j (begin c) } else none) = _
      rw [h2, if_pos hi]
    · cases hm
  | go j =>
    change advance S j s = some s' at hm
    have e : t = { s with log := t.log } := by cases t; cases s; cases h1; cases h2; rfl
    have ha := advance_log S j s t.log
    rw [hm, ← e] at ha
    refine ⟨_, ha, ⟨rfl, rfl, ?_⟩, ?_⟩
    · rw [advance_entry hm]
      simp only
      cases s.pc j with
      | ret c res =>
        simp only
        by_cases hj : i = j
        · subst hj
          exact ⟨(c, res) :: new, by rw [upd_same, h3]; rfl, by rw [upd_same, h4]; rfl⟩
        · exact ⟨new, by rw [upd_other _ _ hj, h3], by rw [upd_other _ _ hj, h4]⟩
      | _ => exact ⟨new, h3, h4⟩
    · intro k hk
      rw [advance_entry hm]
      simp only
      cases s.pc j with
      | ret c res =>
        simp only
        by_cases hj : k = j
        · subst hj
          rw [upd_same, upd_same, hl k hk]
        · rw [upd_other _ _ hj, upd_other _ _ hj, hl k hk]
      | _ => exact hl k hk

theorem alike_moves {S : Source} {i : Nat} {l b : List (Call × Res)} : ∀ (ms : List Move) (s t s' : State), Alike i l b s t →
    (∀ j, j ≠ i → s.log j = t.log j) → ms.foldlM (move S) s = some s' → ∃ t', ms.foldlM (move S) t = some t' ∧ Alike i l b s' t' := by
  intro ms
  induction ms with
  | nil => intro s t s' h _ hs; cases hs; exact ⟨t, rfl, h⟩
  | cons m ms ih =>
    intro s t s' h hl hs
    rw [List.foldlM_cons] at hs
    cases hm : move S s m with
    | none => rw [hm] at hs; cases hs
    | some s1 =>
      rw [hm] at hs
      obtain ⟨t1, e1, e2, e3⟩ := alike_move h hm hl
      obtain ⟨t', e4, e5⟩ := ih s1 t1 s' e2 e3 hs
      exact ⟨t', by rw [List.foldlM_cons, e1]; exact e4, e5⟩

theorem goodLog_suffix {S : Source} : ∀ {l : List (Call × Res)} {newer : List (Call × Res)}, GoodLog S (newer ++ l) → GoodLog S l := by
  intro l newer
  induction newer with
  | nil => exact id
  | cons e newer ih => intro h; exact ih h.2.2

theorem goodLog_mem {S : Source} {l : List (Call × Res)} (h : GoodLog S l) : ∀ e ∈ l, e.2 = .returned → ¬ IsLookup e.1 := by
  induction l with
  | nil => intro e he; cases he
  | cons x l ih =>
    intro e he
    rcases List.mem_cons.mp he with rfl | he
    · exact h.1
    · exact ih h.2.2 e he

theorem goodLog_setups {S : Source} {l : List (Call × Res)} (h : ∀ e ∈ l, ¬ IsLookup e.1) : GoodLog S l := by
  induction l with
  | nil => trivial
  | cons x l ih =>
    have hx := h x (by simp)
    exact ⟨fun _ => hx, fun hl => absurd hl hx, ih fun e he => h e (by simp [he])⟩

theorem notLookup_of_sets {c : Call} {p : Pkg} (h : p ∈ sets c) : ¬ IsLookup c := by
  cases c <;> simp [sets, IsLookup] at h ⊢

/-- The number of moves that a goroutine has yet to make in its call, at most. -/
def left (S : Source) : Pc → Nat
  | .idle => 0
  | .dead => 0
  | .ret _ _ => 1
  | .doing _ todo => 2 + (todo.map fun p => (order S p).length + 4).sum
  | .body _ p k todo => (order S p).length + 2 - k + 3 + (todo.map fun p => (order S p).length + 4).sum
  | .scanning _ p _ k => size S p + 3 - k
  | .askPict _ _ => 2

theorem advance_left {S : Source} {s s' : State} {i : Nat} (h : Inv S s) (hs : advance S i s = some s') :
    left S (s'.pc i) < left S (s.pc i) ∧ ∀ j, j ≠ i → s'.pc j = s.pc j := by
  have t3 := (h.2 i).2.2
  unfold advance at hs
  cases hpc : s.pc i with
  | idle => rw [hpc] at hs; cases hs
  | dead => rw [hpc] at hs; cases hs
  | ret c res =>
    rw [hpc] at hs
    cases hs
    refine ⟨?_, fun j hj => upd_other _ _ hj⟩
    simp only [upd_same]
    split <;> simp [left]
  | doing c todo =>
    rw [hpc] at hs
    cases todo with
    | nil => cases hs; exact ⟨by simp [left], fun j hj => upd_other _ _ hj⟩
    | cons p todo =>
      simp only at hs
      cases ho : (s.vars p).once with
      | running => rw [ho] at hs; cases hs
      | done => rw [ho] at hs; cases hs; exact ⟨by simp only [upd_same, left, List.map_cons, List.sum_cons]; omega, fun j hj => upd_other _ _ hj⟩
      | idle => rw [ho] at hs; cases hs; exact ⟨by simp only [upd_same, left, List.map_cons, List.sum_cons]; omega, fun j hj => upd_other _ _ hj⟩
  | body c p k todo =>
    rw [hpc] at hs
    cases k with
    | zero => cases hs; exact ⟨by simp only [upd_same, left]; omega, fun j hj => upd_other _ _ hj⟩
    | succ k =>
      simp only at hs
      cases hk : (order S p)[k]? with
      | some j =>
        rw [hk] at hs
        cases hs
        have := (List.getElem?_eq_some_iff.mp hk).1
        exact ⟨by simp only [upd_same, left]; omega, fun j hj => upd_other _ _ hj⟩
      | none =>
        rw [hk] at hs
        cases hs
        exact ⟨by simp only [upd_same, left]; omega, fun j hj => upd_other _ _ hj⟩
  | scanning c p r k =>
    rw [hpc] at hs t3
    have hle : k ≤ size S p := t3.2.1
    simp only at hs
    split at hs
    · cases hs
      refine ⟨?_, fun j hj => upd_other _ _ hj⟩
      simp only [upd_same]
      have h2 : left S (afterLoop c r) ≤ 2 := by cases c <;> simp [afterLoop, left]
      have h3 : 3 ≤ left S (.scanning c p r k) := by simp only [left]; omega
      exact Nat.lt_of_le_of_lt h2 h3
    · cases hsl : ((s.vars p).slots.bind fun l => l[k]?) with
      | none => rw [hsl] at hs; cases hs; exact ⟨by simp only [upd_same, left]; omega, fun j hj => upd_other _ _ hj⟩
      | some o =>
        rw [hsl] at hs
        cases o with
        | none => cases hs; exact ⟨by simp only [upd_same, left]; omega, fun j hj => upd_other _ _ hj⟩
        | some f =>
          cases hs
          refine ⟨?_, fun j hj => upd_other _ _ hj⟩
          simp only [upd_same]
          split <;> simp only [left] <;> omega
  | askPict c r =>
    rw [hpc] at hs
    simp only at hs
    cases hsl : ((s.vars .emoji).slots.bind fun l => l[5]?) with
    | none => rw [hsl] at hs; cases hs; exact ⟨by simp only [upd_same, left]; omega, fun j hj => upd_other _ _ hj⟩
    | some o =>
      rw [hsl] at hs
      cases o with
      | none => cases hs; exact ⟨by simp only [upd_same, left]; omega, fun j hj => upd_other _ _ hj⟩
      | some f => cases hs; exact ⟨by simp only [upd_same, left]; omega, fun j hj => upd_other _ _ hj⟩

/-- The largest number of moves of a call. -/
def bound (S : Source) : Nat := 34 + S.lineOrder.length + S.lineSize

theorem left_begin (S : Source) (c : Call) : left S (begin c) ≤ bound S := by
  cases c with
  | classFor p r =>
    have : left S (begin (.classFor p r)) ≤ size S p + 3 := by
      show left S (if _ then _ else _) ≤ _
      split <;> simp only [left] <;> omega
    unfold bound
    cases p <;> simp only [size] at this <;> omega
  | graphemeClass r =>
    have : left S (begin (.graphemeClass r)) ≤ 16 := by
      show left S (if _ then _ else _) ≤ _
      split <;> simp [left, size]
    unfold bound
    omega
  | wordClass r =>
    have : left S (begin (.wordClass r)) ≤ 21 := by
      show left S (if _ then _ else _) ≤ _
      split <;> simp [left, size]
    unfold bound
    omega
  | _ => simp [begin, left, order, bound]; try omega

/-- Moves of goroutine `i`, and calls it makes. -/
def goes (i : Nat) (ms : List Move) : Nat := ms.countP fun m => decide (m = .go i)

def calls (i : Nat) (ms : List Move) : Nat := ms.countP fun m => match m with | .call j _ => j == i | .go _ => false

theorem goes_bounded {S : Source} (hS : Complete S) (i : Nat) : ∀ (ms : List Move) (s s' : State), Inv S s → ms.foldlM (move S) s = some s' →
    goes i ms + left S (s'.pc i) ≤ bound S * calls i ms + left S (s.pc i) := by
  intro ms
  induction ms with
  | nil => intro s s' _ hs; cases hs; simp [goes, calls]
  | cons m ms ih =>
    intro s s' h hs
    rw [List.foldlM_cons] at hs
    cases hm : move S s m with
    | none => rw [hm] at hs; cases hs
    | some s1 =>
      rw [hm] at hs
      have key := ih s1 s' (move_inv hS h hm) hs
      cases m with
      | go j =>
        have hl := advance_left h hm
        have e2 : calls i (.go j :: ms) = calls i ms := by simp [calls]
        rw [e2]
        by_cases hj : j = i
        · subst hj
          have e1 : goes j (.go j :: ms) = goes j ms + 1 := by simp [goes]
          rw [e1]
          have := hl.1
          omega
        · have e1 : goes i (.go j :: ms) = goes i ms := by simp [goes, hj]
          rw [e1]
          have := hl.2 i (fun e => hj e.symm)
          rw [this] at key
          exact key
      | call j c =>
        change (if s.pc j = .idle then some { s with pc := upd s.pc j (begin c) } else none) = some s1 at hm
        split at hm
        · rename_i hi
          cases hm
          have e1 : goes i (.call j c :: ms) = goes i ms := by simp [goes]
          rw [e1]
          by_cases hj : j = i
          · subst hj
            have e2 : calls j (.call j c :: ms) = calls j ms + 1 := by simp [calls]
            rw [e2, Nat.mul_add, Nat.mul_one]
            simp only [upd_same] at key
            have := left_begin S c
            omega
          · have e2 : calls i (.call j c :: ms) = calls i ms := by simp [calls, hj]
            rw [e2]
            simp only [upd_other _ _ (fun e => hj e.symm : i ≠ j)] at key
            exact key
        · cases hm

/-- The classes' tables of /repo (for uax14, any). -/
def realSource (lineSize : Nat) (lineOrder : List Nat) (line : Nat → Int → Bool) : Source where
  is := fun p c r => match p with
    | .emoji => (eClasses[c]?).elim false fun e => inRanges (eTable e) r
    | .grapheme => (Graph.tabled[c]?).elim false fun g => inRanges (gTable g) r
    | .word => (Word.tabled[c]?).elim false fun w => inRanges (wTable w) r
    | .line => line c r
  lineSize := lineSize
  lineOrder := lineOrder

/-- The grapheme class, or word class, a result stands for. -/
def graphemeOf : Res → GClass
  | .cls c => (Graph.tabled[c]?).getD .Any
  | .pict => .Pict
  | .eot => .eot
  | _ => .Any

def wordOf : Res → WClass
  | .cls c => (Word.tabled[c]?).getD .Other
  | .pict => .Pict
  | .eot => .eot
  | _ => .Other

theorem range_find {α : Type} (p : α → Bool) : ∀ l : List α,
    ((List.range l.length).find? fun c => (l[c]?).elim false p).bind (fun c => l[c]?) = l.find? p := by
  intro l
  induction l with
  | nil => rfl
  | cons a l ih =>
    rw [List.length_cons, List.range_succ_eq_map, List.find?_cons, List.find?_cons]
    show (match p a with | true => some 0 | false => _).bind _ = _
    cases h : p a with
    | true => rfl
    | false =>
      simp only
      rw [List.find?_map, ← ih]
      simp only [Function.comp_def, List.getElem?_cons_succ]
      cases List.find? (fun c => (l[c]?).elim false p) (List.range l.length) <;> rfl

theorem expected_real_grapheme (n : Nat) (o : List Nat) (line : Nat → Int → Bool) (r : Int) :
    graphemeOf (expected (realSource n o line) (.graphemeClass r)) = Graph.classOf realG r := by
  rw [expected_grapheme]
  unfold Graph.classOf Graph.classForRune
  by_cases h0 : r = 0
  · simp [h0, graphemeOf]
  rw [if_neg h0, if_neg h0]
  have := range_find (fun g => inRanges (gTable g) r) Graph.tabled
  unfold classIn
  show graphemeOf (withPict _ r (match ((List.range 13).find? fun c => (Graph.tabled[c]?).elim false fun g => inRanges (gTable g) r) with
    | some c => Res.cls c | none => Res.other)) = _
  have hl : Graph.tabled.length = 13 := rfl
  rw [hl] at this
  have hb : ∀ c, ((List.range 13).find? fun c => (Graph.tabled[c]?).elim false fun g => inRanges (gTable g) r) = some c → c < 13 :=
    fun c hc => List.mem_range.mp (List.mem_of_find?_eq_some hc)
  show _ = if (Graph.tabled.find? fun c => inRanges (gTable c) r).getD .Any = .Any then _ else _
  cases hf : ((List.range 13).find? fun c => (Graph.tabled[c]?).elim false fun g => inRanges (gTable g) r) with
  | none =>
    rw [hf] at this
    have e : (Graph.tabled.find? fun c => inRanges (gTable c) r) = none := this.symm
    rw [e]
    show graphemeOf (if inRanges TabE.Extended_Pictographic r then Res.pict else Res.other) = if inRanges TabE.Extended_Pictographic r then _ else _
    split <;> rfl
  | some c =>
    have hc := hb c hf
    rw [hf] at this
    simp only [Option.bind_some] at this
    have h' : (Graph.tabled.find? fun c => realG.is c r) = Graph.tabled[c]? := this.symm
    show (Graph.tabled[c]?).getD .Any = _
    rw [← this, h']
    have : ∀ c, c < 13 → ∃ g, Graph.tabled[c]? = some g ∧ g ≠ .Any := by decide +kernel
    obtain ⟨g, e, hg⟩ := this c hc
    rw [e]
    simp [hg]

theorem expected_real_word (n : Nat) (o : List Nat) (line : Nat → Int → Bool) (r : Int) :
    wordOf (expected (realSource n o line) (.wordClass r)) = Word.classOf realW r := by
  rw [expected_word]
  unfold Word.classOf Word.classForRune
  by_cases h0 : r = 0
  · simp [h0, wordOf]
  rw [if_neg h0, if_neg h0]
  have := range_find (fun g => inRanges (wTable g) r) Word.tabled
  unfold classIn
  show wordOf (withPict _ r (match ((List.range 18).find? fun c => (Word.tabled[c]?).elim false fun g => inRanges (wTable g) r) with
    | some c => Res.cls c | none => Res.other)) = _
  have hl : Word.tabled.length = 18 := rfl
  rw [hl] at this
  have hb : ∀ c, ((List.range 18).find? fun c => (Word.tabled[c]?).elim false fun g => inRanges (wTable g) r) = some c → c < 18 :=
    fun c hc => List.mem_range.mp (List.mem_of_find?_eq_some hc)
  show _ = if (Word.tabled.find? fun c => inRanges (wTable c) r).getD .Other = .Other then _ else _
  cases hf : ((List.range 18).find? fun c => (Word.tabled[c]?).elim false fun g => inRanges (wTable g) r) with
  | none =>
    rw [hf] at this
    have e : (Word.tabled.find? fun c => inRanges (wTable c) r) = none := this.symm
    rw [e]
    show wordOf (if inRanges TabE.Extended_Pictographic r then Res.pict else Res.other) = if inRanges TabE.Extended_Pictographic r then _ else _
    split <;> rfl
  | some c =>
    have hc := hb c hf
    rw [hf] at this
    simp only [Option.bind_some] at this
    have h' : (Word.tabled.find? fun c => realW.is c r) = Word.tabled[c]? := this.symm
    show (Word.tabled[c]?).getD .Other = _
    rw [← this, h']
    have : ∀ c, c < 18 → ∃ g, Word.tabled[c]? = some g ∧ g ≠ .Other := by decide +kernel
    obtain ⟨g, e, hg⟩ := this c hc
    rw [e]
    simp [hg]

end Uax.Setup

namespace Uax
open Setup

/-! ### C60 -/

/-- C60, correct classes. A goroutine looks up the class of a rune while others do whatever they do. If each of the packages whose
tables the look-up needs has been set up — by a call that had returned, in any goroutine, when `s1` was reached, or by a
call of this goroutine since then — the look-up does not panic and gives the class of the complete tables. -/
theorem C60_after_setup (S : Source) (hS : Complete S) (s1 s2 : State) (h1 : Reached S s1) (i : Nat) (hidle : s1.pc i = .idle)
    (ms : List Move) (h2 : ms.foldlM (move S) s1 = some s2) (newer older : List (Call × Res)) (c : Call) (res : Res)
    (hlog : s2.log i = newer ++ (c, res) :: older ++ s1.log i) (hc : IsLookup c)
    (hset : ∀ p ∈ needs c, (∃ j, SetUp p (s1.log j)) ∨ SetUp p older) : res = expected S c := by
  have hinv := reached_inv hS h1
  -- the calls of other goroutines that count
  have hb : ∃ b : List (Call × Res), (∀ e ∈ b, ¬ IsLookup e.1) ∧ (∀ p, SetUp p b → Done s1.vars p) ∧
      ∀ p ∈ needs c, (∃ j, SetUp p (s1.log j)) → SetUp p b := by
    have key : ∀ ps : List Pkg, ∃ b : List (Call × Res), (∀ e ∈ b, ¬ IsLookup e.1) ∧ (∀ p, SetUp p b → Done s1.vars p) ∧
        ∀ p ∈ ps, (∃ j, SetUp p (s1.log j)) → SetUp p b := by
      intro ps
      induction ps with
      | nil => exact ⟨[], by simp, (by rintro p ⟨e, he, -⟩; cases he), by simp⟩
      | cons q ps ih =>
        obtain ⟨b, b1, b2, b3⟩ := ih
        by_cases hq : ∃ j, SetUp q (s1.log j)
        · obtain ⟨j, e, he, e1, e2⟩ := hq
          refine ⟨e :: b, ?_, ?_, ?_⟩
          · intro x hx
            rcases List.mem_cons.mp hx with rfl | hx
            · exact notLookup_of_sets e2
            · exact b1 x hx
          · intro p hp
            rcases setUp_cons hp with ⟨-, hp⟩ | hp
            · exact (hinv.2 j).1 p ⟨e, he, e1, hp⟩
            · exact b2 p hp
          · intro p hp hj
            rcases List.mem_cons.mp hp with rfl | hp
            · exact ⟨e, by simp, e1, e2⟩
            · obtain ⟨x, hx, hx'⟩ := b3 p hp hj
              exact ⟨x, by simp [hx], hx'⟩
        · refine ⟨b, b1, b2, fun p hp hj => ?_⟩
          rcases List.mem_cons.mp hp with rfl | hp
          · exact absurd hj hq
          · exact b3 p hp hj
    exact key _
  obtain ⟨b, b1, b2, b3⟩ := hb
  -- the same run with another log
  let t : State := { s1 with log := upd s1.log i b }
  have ht : Inv S t := by
    refine ⟨fun p => hinv.1 p, fun j => ?_⟩
    by_cases e : j = i
    · subst e
      refine ⟨fun p hp => b2 p ?_, ?_, ?_⟩
      · simpa [t] using hp
      · simp only [t, upd_same]; exact goodLog_setups b1
      · simp only [t]; rw [hidle]; trivial
    · simp only [t, upd_other _ _ e]
      exact hinv.2 j
  have hal : Alike i (s1.log i) b s1 t := ⟨rfl, rfl, [], rfl, by simp [t]⟩
  obtain ⟨t', e1, -, -, new, e2, e3⟩ := alike_moves ms s1 t s2 hal (fun j hj => by simp [t, upd_other _ _ hj]) h2
  have hnew : new = newer ++ (c, res) :: older := List.append_cancel_right (e2.symm.trans hlog)
  have hgood := ((moves_inv hS ms t t' ht e1).2 i).2.1
  rw [e3, hnew, List.append_assoc] at hgood
  have := goodLog_suffix hgood
  refine this.2.1 hc fun p hp => ?_
  rcases hset p hp with h | ⟨e, he, h⟩
  · obtain ⟨x, hx, hx'⟩ := b3 p hp h
    exact ⟨x, by simp [hx], hx'⟩
  · exact ⟨e, by simp [he], h⟩

/-- C60 with the tables of /repo: what the breakers look up is the class that the other theorems on graphemes and words (C01, C03, C55,
C58) speak of. -/
theorem C60_real_classes (n : Nat) (o : List Nat) (line : Nat → Int → Bool) (r : Int) :
    graphemeOf (expected (realSource n o line) (.graphemeClass r)) = Graph.classOf realG r ∧
    wordOf (expected (realSource n o line) (.wordClass r)) = Word.classOf realW r :=
  ⟨expected_real_grapheme n o line r, expected_real_word n o line r⟩

/-- C60: the tables of a package are made at most once, whatever calls there are. -/
theorem C60_once (S : Source) (hS : Complete S) (s : State) (h : Reached S s) (p : Pkg) : (s.vars p).made ≤ 1 := by
  have := (reached_inv hS h).1 p
  unfold GInv at this
  cases ho : (s.vars p).once with
  | idle => rw [ho] at this; omega
  | running => rw [ho] at this; obtain ⟨_, _, k, _, _, _, _, h4, _⟩ := this; omega
  | done => rw [ho] at this; omega

/-- C60: no deadlock. If a goroutine is inside of a call, it or another one can go on. -/
theorem C60_no_deadlock (S : Source) (hS : Complete S) (s : State) (h : Reached S s) (i : Nat) (h1 : s.pc i ≠ .idle) (h2 : s.pc i ≠ .dead) :
    ∃ j, (advance S j s).isSome := by
  have hbody : ∀ j c p k t, s.pc j = .body c p k t → (advance S j s).isSome := by
    intro j c p k t e
    unfold advance
    rw [e]
    cases k with
    | zero => rfl
    | succ k => simp only; cases (order S p)[k]? <;> rfl
  cases hpc : s.pc i with
  | idle => exact absurd hpc h1
  | dead => exact absurd hpc h2
  | ret c res => exact ⟨i, by unfold advance; rw [hpc]; rfl⟩
  | body c p k t => exact ⟨i, hbody i c p k t hpc⟩
  | doing c todo =>
    cases todo with
    | nil => exact ⟨i, by unfold advance; rw [hpc]; rfl⟩
    | cons p todo =>
      cases ho : (s.vars p).once with
      | idle => exact ⟨i, by unfold advance; rw [hpc]; simp [ho]⟩
      | done => exact ⟨i, by unfold advance; rw [hpc]; simp [ho]⟩
      | running =>
        have := (reached_inv hS h).1 p
        unfold GInv at this
        rw [ho] at this
        obtain ⟨j, c', k, t, hj, -⟩ := this
        exact ⟨j, hbody j c' p k t hj⟩
  | scanning c p r k =>
    refine ⟨i, ?_⟩
    unfold advance
    rw [hpc]
    simp only
    split
    · rfl
    · cases ((s.vars p).slots.bind fun l => l[k]?) with
      | none => rfl
      | some o => cases o <;> rfl
  | askPict c r =>
    refine ⟨i, ?_⟩
    unfold advance
    rw [hpc]
    simp only
    cases ((s.vars .emoji).slots.bind fun l => l[5]?) with
    | none => rfl
    | some o => cases o <;> rfl

/-- C60: no call goes on for ever. In every schedule a goroutine makes no more than `bound S` moves for each of its calls (34 and the
number of line classes twice). Together with `C60_no_deadlock`: if finitely many calls are made, all of them come to an end. -/
theorem C60_bounded (S : Source) (hS : Complete S) (ms : List Move) (s : State) (h : ms.foldlM (move S) init = some s) (i : Nat) :
    goes i ms ≤ (34 + S.lineOrder.length + S.lineSize) * calls i ms := by
  have := goes_bounded hS i ms init s (inv_init S) h
  have e : left S (init.pc i) = 0 := rfl
  unfold bound at this
  omega

/-! ### Concrete runs -/

/-- The tables of /repo, with no line classes. -/
def exampleSource : Source := realSource 0 [] fun _ _ => false

/-- Two goroutines set up graphemes at the same time: goroutine 1 makes the tables of graphemes, goroutine 0 those of emojis. Goroutine 0
then looks up a syllable (U+AC01, of class LVT, number 11). -/
def twoGoroutines : List Move :=
  [.call 0 .setupGraphemeClasses, .call 1 .stringFromString, .go 1] ++ List.replicate 15 (.go 1) ++ [.go 0, .go 0] ++
  List.replicate 8 (.go 0) ++ [.go 1, .go 0, .go 0, .call 0 (.graphemeClass 0xac01), .go 1] ++ List.replicate 5 (.go 0) ++ [.go 1] ++
  List.replicate 8 (.go 0)

example : (twoGoroutines.foldlM (move exampleSource) init).map (fun s => s.log 0) = some [(.graphemeClass 0xac01, .cls 11), (.setupGraphemeClasses, .returned)] := by
  decide +kernel

/-- The hypotheses of `C60_after_setup` hold: goroutine 0 has set up both packages, in its own log. -/
example : Complete exampleSource ∧ IsLookup (.graphemeClass 0xac01) ∧
    ∀ p ∈ needs (.graphemeClass 0xac01), SetUp p [(.setupGraphemeClasses, .returned)] := by
  refine ⟨fun c => ⟨fun h => (by cases h), fun h => absurd h (Nat.not_lt_zero c)⟩, trivial, fun p hp => ⟨_, List.mem_singleton.mpr rfl, rfl, hp⟩⟩

/-- While goroutine 1 is making the tables, goroutine 0 has to wait. -/
example : ((([.call 0 .setupGraphemeClasses, .call 1 .stringFromString, .go 1, .go 1, .go 0] : List Move)).foldlM (move exampleSource) init).isNone = true := by
  decide +kernel

/-- C60, that set-up has to come first: `NewBreaker` of package grapheme does not set up, and asking the breaker for a class panics; a
look-up while another goroutine is setting up may see some of the tables only, and give a wrong class (no class for the syllable U+AC01). -/
theorem C60_setup_needed :
    ((([.call 0 .newBreaker, .go 0, .go 0, .call 0 (.graphemeClass 97), .go 0, .go 0] : List Move)).foldlM (move exampleSource) init).map
      (fun s => s.log 0) = some [(.graphemeClass 97, .panicked), (.newBreaker, .returned)] ∧
    ((([.call 0 .setupGraphemeClasses, .go 0, .go 0, .call 1 (.classFor .grapheme 0xac01)] ++ List.replicate 15 (.go 1) : List Move)).foldlM
      (move exampleSource) init).map (fun s => s.log 1) = some [(.classFor .grapheme 0xac01, .other)] ∧
    expected exampleSource (.classFor .grapheme 0xac01) = .cls 11 := by
  decide +kernel

end Uax
