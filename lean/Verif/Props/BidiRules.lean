import Verif.BidiTrieProofs

/-! Property C40: the lookup of the resolver's rules. -/

namespace Uax
open Bidi

/-! ### Specification: a rule applies where its left-hand side is at the front. -/

/-- The left-hand side of the rule is at the front of the classes. -/
def Applies (r : Rule) (cs : List Class) : Prop := r.lhs <+: cs

instance (r : Rule) (cs : List Class) : Decidable (Applies r cs) := inferInstanceAs (Decidable (_ <+: _))

/-- The rule has a left-hand side of two or three classes. -/
def Long (r : Rule) : Prop := 2 ≤ r.lhs.length

instance (r : Rule) : Decidable (Long r) := inferInstanceAs (Decidable (_ ≤ _))

/-- These are classes of characters, brackets, isolates or neutrals. -/
def Classes (cs : List Class) : Prop := ∀ c ∈ cs, c < cMAX

instance (cs : List Class) : Decidable (Classes cs) := inferInstanceAs (Decidable (∀ c ∈ cs, _ < _))

/-! ### Lemmas -/

theorem mem_allRules (r : Rule) : r ∈ allRules := by cases r <;> decide

theorem mem_kept (r : Rule) : r ∈ keptRules ↔ r ∉ lostRules := by cases r <;> decide

theorem lhs_prefix : ∀ r ∈ allRules, ∀ s ∈ allRules, (Long r ↔ Long s) → r.lhs <+: s.lhs → r = s := by decide +kernel

theorem applies_unique {r s : Rule} {cs : List Class} (hl : Long r ↔ Long s) (hr : Applies r cs) (hs : Applies s cs) :
    r = s := by
  rcases Nat.le_total r.lhs.length s.lhs.length with h | h
  · exact lhs_prefix r (mem_allRules r) s (mem_allRules s) hl (List.prefix_of_prefix_length_le hr hs h)
  · exact (lhs_prefix s (mem_allRules s) r (mem_allRules r) hl.symm (List.prefix_of_prefix_length_le hs hr h)).symm

theorem find_unique {p : Rule → Bool} {l : List Rule} (hu : ∀ r s, p r = true → p s = true → r = s) (r : Rule) :
    l.find? p = some r ↔ r ∈ l ∧ p r = true := by
  constructor
  · intro h; exact ⟨List.mem_of_find?_eq_some h, List.find?_some h⟩
  · intro ⟨hm, hp⟩
    cases h : l.find? p with
    | none => exact absurd hp (by simpa using List.find?_eq_none.mp h r hm)
    | some s => rw [hu s r (List.find?_some h) hp]

theorem longAmong_iff (cs : List Class) (r : Rule) :
    longAmong keptRules cs = some r ↔ r ∉ lostRules ∧ Long r ∧ Applies r cs := by
  unfold longAmong
  rw [find_unique]
  · rw [mem_kept]; simp [Long, Applies]
  · intro r s hr hs
    simp only [Bool.and_eq_true, decide_eq_true_eq, List.isPrefixOf_iff_prefix] at hr hs
    exact applies_unique ⟨fun _ => hs.1, fun _ => hr.1⟩ hr.2 hs.2

theorem shortAmong_iff (cs : List Class) (r : Rule) :
    shortAmong keptRules cs = some r ↔ ¬ Long r ∧ Applies r cs := by
  unfold shortAmong
  rw [find_unique]
  · rw [mem_kept]
    have : r.lhs.length = 1 ↔ ¬ Long r := by cases r <;> decide
    have h2 : ¬ Long r → r ∉ lostRules := by cases r <;> decide
    simp only [Bool.and_eq_true, decide_eq_true_eq, List.isPrefixOf_iff_prefix, this]
    constructor
    · intro h; exact h.2
    · intro h; exact ⟨h2 h.1, h⟩
  · intro r s hr hs
    simp only [Bool.and_eq_true, decide_eq_true_eq, List.isPrefixOf_iff_prefix] at hr hs
    exact applies_unique (by simp [Long, hr.1, hs.1]) hr.2 hs.2

/-! ### C40 -/

/-- At most one long rule and at most one short rule apply to any classes, so
"the rule" is well defined. -/
theorem C40_at_most_one (cs : List Class) (r s : Rule) (hl : Long r ↔ Long s) (hr : Applies r cs) (hs : Applies s cs) :
    r = s := applies_unique hl hr hs

/-- For every sequence of classes, the lookup does not panic. It finds a long
rule iff the rule applies and it is not one of four lost ones. It finds a short
rule iff it applies. Missing for the full property: the four lost rules. -/
theorem C40_lookup_partial (cs : List Class) (minlen : Nat) (hm : minlen ≤ 2) (hc : Classes cs) :
    ∃ long short, lookupRules cs minlen = some (long, short) ∧
      (∀ r, long = some r ↔ r ∉ [Rule.N1_5, .N1_6, .N1_8, .N1_9] ∧ Long r ∧ Applies r cs) ∧
      (∀ r, short = some r ↔ ¬ Long r ∧ Applies r cs) :=
  ⟨_, _, lookupRules_eq cs minlen hm hc, longAmong_iff cs, shortAmong_iff cs⟩

example : Classes [cEN, cES, cEN, cNI] ∧ Applies .W4_1 [cEN, cES, cEN, cNI] ∧ Applies .W7 [cEN, cES, cEN, cNI] := by
  decide
example : lookupRules [cEN, cES, cEN, cNI] 0 = some (some .W4_1, some .W7) := by decide +kernel

/-- What is found applies. -/
theorem C40_found_applies (cs : List Class) (minlen : Nat) (hm : minlen ≤ 2) (hc : Classes cs)
    (long short : Option Rule) (h : lookupRules cs minlen = some (long, short)) :
    (∀ r, long = some r → Applies r cs) ∧ (∀ r, short = some r → Applies r cs) := by
  obtain ⟨l, s, he, h1, h2⟩ := C40_lookup_partial cs minlen hm hc
  obtain ⟨rfl, rfl⟩ := Prod.mk.inj (Option.some.inj (h.symm.trans he))
  exact ⟨fun r hr => ((h1 r).mp hr).2.2, fun r hr => ((h2 r).mp hr).2⟩

/-- The four rules of N1 which are lost are never found, whatever follows. -/
theorem C40_violated (r : Rule) (hr : r ∈ [Rule.N1_5, .N1_6, .N1_8, .N1_9]) (rest : List Class) (hc : Classes rest)
    (minlen : Nat) (hm : minlen ≤ 2) :
    Long r ∧ Applies r (r.lhs ++ rest) ∧ ∃ short, lookupRules (r.lhs ++ rest) minlen = some (none, short) := by
  have hL : Long r := by cases r <;> revert hr <;> decide
  have hA : Applies r (r.lhs ++ rest) := List.prefix_append _ _
  refine ⟨hL, hA, ?_⟩
  have hC : Classes (r.lhs ++ rest) := by
    intro c h
    rcases List.mem_append.mp h with h | h
    · have : ∀ c ∈ r.lhs, c < cMAX := by cases r <;> decide
      exact this c h
    · exact hc c h
  obtain ⟨long, short, he, h1, _⟩ := C40_lookup_partial (r.lhs ++ rest) minlen hm hC
  refine ⟨short, ?_⟩
  cases long with
  | none => exact he
  | some s =>
    exfalso
    obtain ⟨hs, hsl, hsa⟩ := (h1 s).mp rfl
    have : s = r := applies_unique ⟨fun _ => hL, fun _ => hsl⟩ hsa hA
    exact hs (this ▸ hr)

example : Classes [cR, cNI] ∧ Rule.N1_8 ∈ [Rule.N1_5, .N1_6, .N1_8, .N1_9] := by decide

end Uax
