import Verif.BidiChars
import Verif.SpecBrackets

/-
The handler of bracket pairs does what rule BD16 says, but for brackets that
are nested too deeply and canonical equivalents.
-/
namespace Uax.Bidi
open Spec

theorem table_same : bracketPairs = pairedBrackets := by decide +kernel

/-- The open brackets, nearest first. -/
def Handler.opens (h : Handler) : List (Nat × Nat) := h.stack.reverse.map fun b => (b.pair.2, b.opening.l)

/-- The pairs found, as positions. -/
def Handler.found (h : Handler) : List (Nat × Nat) := h.pairings.map fun p => (p.opening.l, p.closing.l)

theorem popLoop_eq (b : Nat) : ∀ l : List BrktPos, (l.map fun b => (b.pair.2, b.opening.l)).dropWhile (fun x => x.1 ≠ b) =
    match popLoop b l with
    | none => []
    | some (t, below) => (t.pair.2, t.opening.l) :: below.map fun b => (b.pair.2, b.opening.l) := by
  intro l
  induction l with
  | nil => rfl
  | cons x xs ih =>
    unfold popLoop
    by_cases h : x.pair.2 = b
    · rw [if_pos h]
      simp [h]
    · rw [if_neg h, List.map_cons, List.dropWhile_cons_of_pos (by simpa using h), ih]

theorem push_opens (h : Handler) (r : Nat) (s : Scrap) (hs : s.clz = cBRACKO) :
    (h.pushOpening r s).found = h.found ∧ (h.pushOpening r s).opens =
      match pairedBrackets.find? (fun p => p.1 == r) with
      | some p => if h.opens.length < 63 then (p.2, s.l) :: h.opens else h.opens
      | none => h.opens := by
  refine ⟨rfl, ?_⟩
  have hl : h.opens.length = h.stack.length := by simp [Handler.opens]
  unfold Handler.pushOpening pushStack
  rw [hl, ← table_same]
  by_cases hf : h.stack.length < 63
  · rw [if_neg (by show ¬ (63 ≤ h.stack.length); omega), if_neg (by simp [hs])]
    cases bracketPairs.find? (fun p => p.1 == r) with
    | none => rfl
    | some p => simp only [if_pos hf]; simp [Handler.opens]
  · rw [if_pos (by show 63 ≤ h.stack.length; omega)]
    cases bracketPairs.find? (fun p => p.1 == r) with
    | none => rfl
    | some p => simp only [if_neg hf]

theorem find_opens (h : Handler) (r : Nat) (s : Scrap) :
    match h.opens.dropWhile (fun x => x.1 ≠ r) with
    | (_, p) :: below => (h.findPair r s).opens = below ∧ (h.findPair r s).found.Perm (h.found ++ [(p, s.l)])
    | [] => (h.findPair r s) = h := by
  have e := popLoop_eq r h.stack.reverse
  unfold Handler.opens at *
  rw [e]
  unfold Handler.findPair popWith
  cases hp : popLoop r h.stack.reverse with
  | none => rfl
  | some x =>
    obtain ⟨t, below⟩ := x
    dsimp only [Option.map_some]
    refine ⟨by rw [List.reverse_reverse], ?_⟩
    unfold Handler.found
    dsimp only
    rw [List.map_append, List.map_cons]
    refine (List.perm_middle).trans ?_
    rw [← List.map_append, List.take_append_drop]
    exact (List.perm_append_singleton _ _).symm

theorem inherit_parts (d s : Scrap) (a : Option Nat) :
    (inheritStrongTypes d s a).l = d.l ∧ (inheritStrongTypes d s a).r = d.r ∧ (inheritStrongTypes d s a).clz = d.clz := by
  unfold inheritStrongTypes
  dsimp only
  repeat' split
  all_goals exact ⟨rfl, rfl, rfl⟩

theorem charClass_bracket {T : Tables} (hB : BracketTable T) (hT : KnownClasses T) {o : Options} {c : Char} :
    (charClass T o c = cBRACKO → ∃ p, pairedBrackets.find? (fun p => p.1 == c.toNat) = some p) ∧
    (charClass T o c = cNSM → pairedBrackets.find? (fun p => p.1 == c.toNat) = none ∧ ∀ p ∈ pairedBrackets, p.2 ≠ c.toNat) := by
  have hk := hT c.toNat
  have h1 : T.cls c.toNat ≠ cBRACKO := by intro h; rw [h] at hk; exact absurd hk (by decide)
  have h2 : T.bracket c.toNat ≠ some true → pairedBrackets.find? (fun p => p.1 == c.toNat) = none := by
    intro h
    rw [List.find?_eq_none]
    rintro ⟨p, q⟩ hp he
    have : p = c.toNat := by simpa using he
    subst this
    exact h ((hB _).1.mpr ⟨q, hp⟩)
  refine ⟨fun h => ?_, fun h => ?_⟩
  · have hb : T.bracket c.toNat = some true := by
      unfold charClass at h
      repeat' split at h
      all_goals first
        | (exact absurd h (by decide))
        | assumption
        | exact absurd h h1
    obtain ⟨q, hq⟩ := (hB _).1.mp hb
    cases hf : pairedBrackets.find? (fun p => p.1 == c.toNat) with
    | some p => exact ⟨p, rfl⟩
    | none => exact absurd (List.find?_eq_none.mp hf _ hq) (by simp)
  · have hb : T.bracket c.toNat ≠ some true ∧ T.bracket c.toNat ≠ some false := by
      unfold charClass at h
      repeat' split at h
      all_goals first
        | (exact absurd h (by decide))
        | exact ⟨by assumption, by assumption⟩
    refine ⟨h2 hb.1, fun p hp he => hb.2 ((hB _).2.mpr ⟨p.1, ?_⟩)⟩
    rw [← he]
    exact hp

/-- An opening bracket on the stack is one of the table. -/
def Handler.Known (h : Handler) : Prop := ∀ x ∈ h.opens, ∃ p ∈ pairedBrackets, p.2 = x.1

/-- The handler at the end of a text. -/
theorem pairUp_bd16 {T : Tables} {o : Options} (hT : KnownClasses T) (hB : BracketTable T) : ∀ (t : List Char) (cur : Scrap) (a : Option Nat)
    (st : List DirContext) (h : Handler), h.Known →
    (pairUp T o (t.map fun c => (c.toNat, (utf8 [c]).length)) cur a st h).found.Perm
      (h.found ++ bd16 false h.opens (bracketsOf T o cur.r t)) := by
  intro t
  induction t with
  | nil => intro cur a st h _; rw [List.map_nil, pairUp, bracketsOf, bd16, List.append_nil]
  | cons c t ih =>
    intro cur a st h hk
    rw [List.map_cons, pairUp]
    dsimp only
    rw [runeClass_char]
    have hn := (charClass_bracket hB hT (o := o) (c := c)).2
    obtain ⟨i1, i2, i3⟩ := inherit_parts (nextScrap cur (charClass T o c) (utf8 [c]).length)
      (switchContext cur st (nextScrap cur (charClass T o c) (utf8 [c]).length)).1 a
    have i1' : (inheritStrongTypes (nextScrap cur (charClass T o c) (utf8 [c]).length)
      (switchContext cur st (nextScrap cur (charClass T o c) (utf8 [c]).length)).1 a).l = cur.r := i1
    have i2' : (inheritStrongTypes (nextScrap cur (charClass T o c) (utf8 [c]).length)
      (switchContext cur st (nextScrap cur (charClass T o c) (utf8 [c]).length)).1 a).r = cur.r + (utf8 [c]).length := i2
    have i3' : (inheritStrongTypes (nextScrap cur (charClass T o c) (utf8 [c]).length)
      (switchContext cur st (nextScrap cur (charClass T o c) (utf8 [c]).length)).1 a).clz = rulesW1to3 (charClass T o c) cur := i3
    generalize inheritStrongTypes (nextScrap cur (charClass T o c) (utf8 [c]).length)
      (switchContext cur st (nextScrap cur (charClass T o c) (utf8 [c]).length)).1 a = new at i1' i2' i3' ⊢
    generalize (switchContext cur st (nextScrap cur (charClass T o c) (utf8 [c]).length)).2 = st'
    clear i1 i2 i3
    rw [bracketsOf]
    rw [← i2']
    generalize (if charClass T o c = cAL then some (nextScrap cur (charClass T o c) (utf8 [c]).length).l else a) = a'
    by_cases ho : charClass T o c = cBRACKO
    · -- an opening bracket
      have hw : rulesW1to3 (charClass T o c) cur = cBRACKO := by rw [ho]; rfl
      rw [hw] at i3'
      have hb : breaks cur (charClass T o c) = true := by
        unfold breaks isBracket
        rw [hw]
        by_cases h : cur.clz = cBRACKO <;> simp [h]
      rw [if_pos hb, if_neg (by unfold isBracket; rw [i3']; decide), if_pos i3', if_pos ho]
      obtain ⟨p, hp⟩ := (charClass_bracket hB hT).1 ho
      obtain ⟨q1, q2⟩ := push_opens h c.toNat new i3'
      rw [hp] at q2 ⊢
      dsimp only at q2 ⊢
      have hk' : (h.pushOpening c.toNat new).Known := by
        intro x hx
        rw [q2] at hx
        split at hx
        · rw [List.mem_cons] at hx
          rcases hx with rfl | hx
          · exact ⟨p, List.mem_of_find?_eq_some hp, rfl⟩
          · exact hk x hx
        · exact hk x hx
      refine (ih new a' st' _ hk').trans ?_
      rw [q1, q2, bd16, i1']
      split
      · exact List.Perm.refl _
      · exact List.Perm.refl _
    · rw [if_neg ho]
      by_cases hc : charClass T o c = cBRACKC
      · -- a closing bracket
        have hw : rulesW1to3 (charClass T o c) cur = cBRACKC := by rw [hc]; rfl
        rw [hw] at i3'
        have hb : breaks cur (charClass T o c) = true := by
          unfold breaks isBracket
          rw [hw]
          by_cases h : cur.clz = cBRACKC <;> simp [h]
        rw [if_pos hb, if_neg (by unfold isBracket; rw [i3']; decide), if_neg (by rw [i3']; decide), if_pos hc]
        have q := find_opens h c.toNat new
        rw [bd16]
        simp only [Bool.false_eq_true, if_false]
        cases hd : h.opens.dropWhile (fun x => x.1 ≠ c.toNat) with
        | nil =>
          rw [hd] at q
          dsimp only at q ⊢
          rw [q]
          exact ih new a' st' h hk
        | cons y below =>
          obtain ⟨y1, y2⟩ := y
          rw [hd] at q
          dsimp only at q ⊢
          refine (ih new a' st' _ ?_).trans ?_
          · intro x hx
            rw [q.1] at hx
            have hm : x ∈ h.opens.dropWhile (fun x => x.1 ≠ c.toNat) := by rw [hd]; exact List.mem_cons_of_mem _ hx
            exact hk x (List.dropWhile_sublist _ |>.mem hm)
          · rw [q.1]
            refine (q.2.append_right _).trans ?_
            rw [i1', List.append_assoc]
            exact List.Perm.refl _
      · rw [if_neg hc]
        -- another character; a mark after a bracket changes nothing
        have hmid : ∀ h', h' = h → (pairUp T o (t.map fun c => (c.toNat, (utf8 [c]).length)) new a' st' h').found.Perm
            (h.found ++ bd16 false h.opens (bracketsOf T o new.r t)) := by
          rintro h' rfl
          exact ih new a' st' _ hk
        split
        · refine hmid _ ?_
          split
          · rfl
          · rename_i hbr
            have hnsm : charClass T o c = cNSM := by
              rcases rules_cases (charClass T o c) cur with e | ⟨e, -⟩ | ⟨-, -, e⟩ | ⟨-, e⟩ | e
              · rw [e] at i3'
                unfold isBracket at hbr
                rw [i3'] at hbr
                simp [ho, hc] at hbr
              · exact e
              all_goals
                rw [e] at i3'
                unfold isBracket at hbr
                rw [i3'] at hbr
                exact absurd hbr (by decide)
            obtain ⟨n1, n2⟩ := hn hnsm
            split
            · rename_i hz
              unfold Handler.pushOpening pushStack
              rw [table_same, n1]
              split
              · rfl
              · split <;> rfl
            · have q := find_opens h c.toNat new
              cases hd : h.opens.dropWhile (fun x => x.1 ≠ c.toNat) with
              | nil => rw [hd] at q; exact q
              | cons y below =>
                have hy : y ∈ h.opens := (List.dropWhile_sublist _).mem (by rw [hd]; exact List.mem_cons_self ..)
                obtain ⟨p, hp, he⟩ := hk y hy
                have he2 : y.1 = c.toNat := by
                  have h0 : (h.opens.dropWhile (fun x => x.1 ≠ c.toNat)) ≠ [] := by rw [hd]; simp
                  have := List.head_dropWhile_not (fun x : Nat × Nat => x.1 ≠ c.toNat) h0
                  simp only [hd, List.head_cons] at this
                  simpa using this
                exact absurd (he.trans he2) (n2 p hp)
        · have := ih (collapse cur (nextScrap cur (charClass T o c) (utf8 [c]).length) cur.clz) a st h hk
          have hr : (collapse cur (nextScrap cur (charClass T o c) (utf8 [c]).length) cur.clz).r = new.r := by
            rw [i2']; rfl
          rw [hr] at this
          exact this

end Uax.Bidi
