import Verif.BidiMarkup
import Verif.BidiOptions
import Verif.BidiSample
import Verif.BidiEndless

/-
Properties C50 (more), C67 and C68: schedules, out-of-line markup, options.
-/
namespace Uax
open Bidi Spec

/-! ### C50 The schedule does not matter -/

/-- For every text without brackets, with isolates and out-of-line markup, all schedules lead to
the same outcome after any number of rounds: the same levels, a panic, or no end yet. Missing: texts
with brackets and isolates (see `C50_violated`). -/
theorem C50_brackets_partial (T : Tables) (o : Options) (s1 s2 : Nat → Nat) (b : List Nat) (hT : KnownClasses T)
    (h : ∀ x ∈ runesOf b, T.bracket x.1 = none) (n : Nat) :
    outcome (resolveParagraph T o s1 b n) = outcome (resolveParagraph T o s2 b n) :=
  resolve_quiet hT o s1 s2 b h n

/-- A text with isolates and no brackets. -/
def isolatesOnly : List Char := ['a', '>', 'B', '<', 'c', '=', ' ', 'B', '=', ' ', 'd', '<', 'E', '=']

example : (∀ x ∈ runesOf (utf8 isolatesOnly), sample.bracket x.1 = none) ∧
    resolvedWith sample { testing := true } (fun _ => 0) (utf8 isolatesOnly) 99 (fun rl => rl.scraps.length > 2) = true :=
  ⟨by decide +kernel, by decide +kernel⟩

/-! ### C67 Out-of-line markup acts as delimiters in the text -/

/-- The outcome of ResolveParagraph with a markup function is that for the text with delimiters
of length zero where the function asks for them, for all texts (also those which are not UTF-8),
schedules and numbers of rounds. Missing: an answer at position 0, see `C67_start_violated`. -/
theorem C67_delimiters_partial (T : Tables) (o : Options) (m : Nat → Nat) (sched : Nat → Nat) (b : List Nat) (n : Nat)
    (hT : KnownDelimiters T) (hm : ValidMarkup m) (ho : o.markup = some m) (h0 : m 0 = 0) :
    outcome (resolveParagraph T o sched b n) = outcome (resolveRunes T { o with markup := none } sched (marked m 0 (runesOf b)) n) :=
  resolve_marked hT hm ho h0 sched b n

/-- A markup function which asks for nothing changes nothing. -/
theorem C67_silent (T : Tables) (o : Options) (sched : Nat → Nat) (b : List Nat) (n : Nat) (hT : KnownDelimiters T) :
    outcome (resolveParagraph T { o with markup := some fun _ => 0 } sched b n) =
      outcome (resolveParagraph T { o with markup := none } sched b n) := by
  rw [C67_delimiters_partial T { o with markup := some fun _ => 0 } (fun _ => 0) sched b n hT (fun _ => ⟨[], List.mem_cons_self⟩) rfl rfl, marked_silent]
  rfl

/-- The text "aBc", with a left-to-right isolate for its second letter. -/
def markupSample (p : Nat) : Nat := if p = 1 then 21 * 256 else if p = 2 then 24 else 0

theorem markupSample_valid : ValidMarkup markupSample := by
  intro p
  unfold markupSample
  split
  · exact ⟨[uLRI], by decide⟩
  · split
    · exact ⟨[uPDI], by decide⟩
    · exact ⟨[], by decide⟩

theorem sample_delimiters : KnownDelimiters sample :=
  ⟨by decide, by decide, by decide, by decide, by decide⟩

example : ValidMarkup markupSample ∧ markupSample 0 = 0 ∧ KnownDelimiters sample ∧
    marked markupSample 0 (runesOf (utf8 ['a', 'B', 'c'])) = [(97, 1), (uLRI, 0), (66, 1), (uPDI, 0), (99, 1)] :=
  ⟨markupSample_valid, rfl, sample_delimiters, by decide⟩

/-- A check of an outcome. -/
def outcomeIs (x : Run Levels) (f : Levels → Bool) : Bool :=
  match x with
  | .returns rl => f rl
  | _ => false

theorem outcomeIs_ne {x y : Run Levels} {f : Levels → Bool} (hx : outcomeIs x f = true) (hy : outcomeIs y f = false) : x ≠ y :=
  fun h => by rw [h, hy] at hx; cases hx

example : outcomeIs (outcome (resolveParagraph sample { testing := true, markup := some markupSample } (fun _ => 0) (utf8 ['a', 'B', 'c']) 99))
      (fun rl => (rl.scraps.map fun s => s.children.map fun c => c.map (·.clz)) == [[], [[cLRI, cR, cPDI]], []]) = true ∧
    outcomeIs (outcome (resolveParagraph sample { testing := true } (fun _ => 0) (utf8 ['a', 'B', 'c']) 99))
      (fun rl => brief rl.scraps == [(cLRI, 0, 0), (cL, 0, 1), (cR, 1, 2), (cL, 2, 3), (cPDI, 3, 3)]) = true :=
  ⟨by decide +kernel, by decide +kernel⟩

/-- An isolate that is asked for at the beginning of the text. -/
def markupStart (p : Nat) : Nat := if p = 0 then 22 * 256 else if p = 2 then 24 else 0

/-- The full property does not hold: the answer at position 0 is never used. -/
theorem C67_start_violated :
    (∀ (T : Tables) (o : Options) (m m' : Nat → Nat) (sched : Nat → Nat) (b : List Nat) (n : Nat), (∀ p, 0 < p → m p = m' p) →
      resolveParagraph T { o with markup := some m } sched b n = resolveParagraph T { o with markup := some m' } sched b n) ∧
    ∃ (T : Tables) (m : Nat → Nat) (sched : Nat → Nat) (b : List Nat) (n : Nat), KnownDelimiters T ∧ ValidMarkup m ∧
      outcome (resolveParagraph T { markup := some m } sched b n) ≠ outcome (resolveRunes T {} sched (marked m 0 (runesOf b)) n) := by
  refine ⟨fun T o m m' sched b n h => resolve_start h sched b n, sample, markupStart, fun _ => 0, utf8 ['a', 'b', 'c'], 99, sample_delimiters, ?_, ?_⟩
  · intro p
    unfold markupStart
    split
    · exact ⟨[uRLI], by decide⟩
    · split
      · exact ⟨[uPDI], by decide⟩
      · exact ⟨[], by decide⟩
  · exact outcomeIs_ne (f := fun rl => brief rl.scraps == [(cLRI, 0, 0), (cL, 0, 2), (cPDI, 2, 2), (cL, 2, 3), (cPDI, 3, 3)])
      (by decide +kernel) (by decide +kernel)

/-- The documentation of OutOfLineBidiMarkup has the function return "a Bidi class to be
inserted". For the classes LRI and RLI themselves a PDI is inserted. -/
theorem C67_class_violated : ∀ c ∈ [cLRI, cRLI], ∃ (T : Tables) (m : Nat → Nat) (b : List Nat), KnownDelimiters T ∧ m 1 = c ∧
    (∀ p, p ≠ 1 → m p = 0) ∧ ∀ sched, ∃ rl, Resolves T { markup := some m } sched b rl ∧
      brief rl.scraps = [(cLRI, 0, 0), (cL, 0, 1), (cPDI, 1, 1), (cL, 1, 2), (cPDI, 2, 2)] := by
  intro c hc
  refine ⟨sample, fun p => if p = 1 then c else 0, utf8 ['a', 'b'], sample_delimiters, rfl, fun p hp => if_neg hp, fun sched => ?_⟩
  have h0 : resolvedWith sample { markup := some fun p => if p = 1 then c else 0 } (fun _ => 0) (utf8 ['a', 'b']) 99
      (fun rl => brief rl.scraps == [(cLRI, 0, 0), (cL, 0, 1), (cPDI, 1, 1), (cL, 1, 2), (cPDI, 2, 2)]) = true := by
    simp only [List.mem_cons, List.not_mem_nil, or_false] at hc
    rcases hc with rfl | rfl <;> decide +kernel
  obtain ⟨rl, h1, h2⟩ := resolvedWith_iff h0
  refine ⟨rl, ?_, eq_of_beq h2⟩
  obtain ⟨N, h1⟩ := h1
  refine ⟨N, fun n hn => ?_⟩
  obtain ⟨p, hp⟩ := h1 n hn
  have e := C50_brackets_partial sample { markup := some fun p => if p = 1 then c else 0 } (fun _ => 0) sched (utf8 ['a', 'b']) sample_known (by decide +kernel) n
  rw [hp] at e
  cases hq : resolveParagraph sample { markup := some fun p => if p = 1 then c else 0 } sched (utf8 ['a', 'b']) n with
  | returns x =>
    rw [hq] at e
    obtain ⟨rl', q⟩ := x
    have : rl = rl' := Run.returns.inj e
    exact ⟨q, by rw [this]⟩
  | panics => rw [hq] at e; cases e
  | running => rw [hq] at e; cases e

/-! ### C68 Options -/

/-- The options in effect: those which have been switched on somewhere. The order does not
matter, and repeating an option does not. Missing: switching an option off again, see
`C68_off_violated`. -/
theorem C68_options_partial (m : Option (Nat → Nat)) (opts : List Opt) :
    (optionsOf m opts).markup = m ∧
    ((optionsOf m opts).outerR2L = true ↔ Opt.defaultDirection .rtl ∈ opts) ∧
    ((optionsOf m opts).testing = true ↔ Opt.testMode true ∈ opts) ∧
    ((optionsOf m opts).ignoreParSep = true ↔ Opt.ignoreParagraphSeparators true ∈ opts) := by
  have key : ∀ (opts : List Opt) (o : Options), (opts.foldl Opt.apply o).markup = o.markup ∧
      ((opts.foldl Opt.apply o).outerR2L = true ↔ o.outerR2L = true ∨ Opt.defaultDirection .rtl ∈ opts) ∧
      ((opts.foldl Opt.apply o).testing = true ↔ o.testing = true ∨ Opt.testMode true ∈ opts) ∧
      ((opts.foldl Opt.apply o).ignoreParSep = true ↔ o.ignoreParSep = true ∨ Opt.ignoreParagraphSeparators true ∈ opts) := by
    intro opts
    induction opts with
    | nil => intro o; simp
    | cons x t ih =>
      intro o
      obtain ⟨h1, h2, h3, h4⟩ := ih (Opt.apply o x)
      rw [List.foldl_cons, h1, h2, h3, h4]
      obtain ⟨mk, a, b, c⟩ := o
      cases x with
      | recognizeLegacy v => simp [Opt.apply]
      | defaultDirection d => cases d <;> simp [Opt.apply]
      | testMode v => cases v <;> cases b <;> simp [Opt.apply]
      | ignoreParagraphSeparators v => cases v <;> cases c <;> simp [Opt.apply]
  obtain ⟨h1, h2, h3, h4⟩ := key opts { markup := m }
  exact ⟨h1, by simpa [optionsOf] using h2, by simpa [optionsOf] using h3, by simpa [optionsOf] using h4⟩

/-- The full property, that the last call for an option decides, does not hold: no option can be
switched off again. -/
theorem C68_off_violated :
    (optionsOf none [.testMode true, .testMode false]).testing = true ∧
    (optionsOf none [.ignoreParagraphSeparators true, .ignoreParagraphSeparators false]).ignoreParSep = true ∧
    (optionsOf none [.defaultDirection .rtl, .defaultDirection .ltr]).outerR2L = true :=
  ⟨rfl, rfl, rfl⟩

/-- RecognizeLegacy has no effect, as documented. -/
theorem C68_legacy (m : Option (Nat → Nat)) (opts : List Opt) :
    optionsOf m (opts.filter fun o => match o with | .recognizeLegacy _ => false | _ => true) = optionsOf m opts := by
  have key : ∀ (opts : List Opt) (o : Options), (opts.filter fun o => match o with | .recognizeLegacy _ => false | _ => true).foldl Opt.apply o =
      opts.foldl Opt.apply o := by
    intro opts
    induction opts with
    | nil => intro o; rfl
    | cons x t ih => intro o; cases x <;> exact ih _
  exact key opts _

example : optionsOf none [.testMode true, .recognizeLegacy true, .defaultDirection .rtl, .testMode true] = { testing := true, outerR2L := true } := rfl

end Uax
