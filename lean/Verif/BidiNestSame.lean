import Verif.BidiSame
import Verif.BidiNest

/-! Texts with closed isolates without brackets inside: brackets outside of them are looked at only
after the scanner has come to its end, so that the schedule does not matter. -/

namespace Uax.Bidi

open Spec

/-- What is received does not depend on the schedule. -/
theorem feeds_same {T : Tables} {o : Options} {s1 s2 : Nat → Nat} {env env' : Scanner × Nat} {ss : List Scrap}
    (h : Feeds (scannerEnv T o s1) env ss env') : Feeds (scannerEnv T o s2) env ss env' := by
  induction h with
  | stop h hz => exact .stop h hz
  | more h hx _ ih => exact .more h hx ih

/-- Two schedules lead to the same result, if pass 1 comes to its end with isolates that are
resolved without a look at the bracket pairs. -/
theorem whole_same {T : Tables} {o : Options} {b : List Nat} {fin : Scanner} {ss : List Scrap} {P : List Scrap → List Scrap → Prop} (s1 s2 : Nat → Nat)
    (hf : Feeds (scannerEnv T o s1) (newScanner o b, 0) ss (fin, 0)) (hfin : fin.step T o = none) (hP : InvI true P) (hR : Far 0 ss) (h1 : P [] ss) :
    ∃ N, ∀ n, N ≤ n → resolveParagraph T o s1 b n = resolveParagraph T o s2 b n := by
  obtain ⟨ys, hr, hys⟩ := pass1_iso_total hP (initialOuterScrap o true) _ [] ss (Nat.le_refl _) h1
  have hroom := hR.ahead
  have hal := ahead_le ss
  obtain ⟨k, p1, r1, r2, r3, r4, r5, r6⟩ := read_three (E := scannerEnv T o s1) (env' := (fin, 0)) (rest := ss)
    (p := { stack := [initialOuterScrap o true], sp := 1, eof := false, depth := 1, env := (newScanner o b, 0) }) (Or.inl ⟨rfl, hf⟩) rfl
  have r1' := r1
  rw [read_same T o s1 s2] at r1'
  have key : ∀ s, Fed (scannerEnv T o s) p1 (ss.drop 3) (fin, 0) → ∃ N p', pass1Loop (scannerEnv T o s) 1 N p1 false none = .returns (false, p') ∧
      p'.stack = initialOuterScrap o true :: ys ∧ p'.eof = true ∧ p'.env = (fin, 0) ∧ p'.depth = 1 := by
    intro s hfed
    obtain ⟨N1, p2, a1, a2, a3, a4, a5⟩ := pass1_red (E := scannerEnv T o s) (env' := (fin, 0)) hr p1 (ss.drop 3) none (by
        rw [r2]; show [_] ++ ss.take 3 ++ ss.drop 3 = _; rw [List.append_assoc, List.take_append_drop]; rfl)
      r4 (Nat.le_refl _) (by rw [r2]; simp) hfed (by rw [r5]; exact Nat.le_refl _) (by simp)
      (by
        intro s hs
        simp only [List.head?_cons, Option.mem_def, Option.some.injEq] at hs
        subst hs
        exact (initial_fine False o).1.2.2.1)
      (by simpa using hR)
      (by
        show ahead ss ≤ _
        rw [List.length_drop]; omega)
      (by
        intro he
        show ahead ss = 0
        have := r6 he
        omega)
    exact ⟨N1, p2, a1, a2, a3, a4, by rw [a5, r5]⟩
  obtain ⟨N1, p2, a1, a2, a3, a4, a5⟩ := key s1 r3
  obtain ⟨N2, q2, c1, c2, c3, c4, c5⟩ := key s2 (by
    rcases r3 with ⟨h1, h2⟩ | h
    · exact Or.inl ⟨h1, feeds_same h2⟩
    · exact Or.inr h)
  have e : ({ p2 with sp := 0 } : Parser (Scanner × Nat)) = { q2 with sp := 0 } := by
    obtain ⟨st, sp, eof, d, env⟩ := p2
    obtain ⟨st', sp', eof', d', env'⟩ := q2
    simp only at a2 a3 a4 a5 c2 c3 c4 c5 ⊢
    subst a2 a3 a4 a5 c2 c3 c4 c5
    rfl
  refine ⟨max N1 N2 + 1, fun n hn => ?_⟩
  obtain ⟨n, rfl⟩ : ∃ m, n = m + 1 := ⟨n - 1, by omega⟩
  have e1 := Run.le_returns (pass1_more (scannerEnv T o s1) (show N1 ≤ n by omega) p1 false none) a1
  have e2 := Run.le_returns (pass1_more (scannerEnv T o s2) (show N2 ≤ n by omega) p1 false none) c1
  unfold resolveParagraph resolveIn
  dsimp only
  rw [parseIRS, parseIRS]
  dsimp only
  rw [r1, r1', Run.andThen_returns, Run.andThen_returns]
  dsimp only
  rw [if_pos rfl, if_pos rfl, e1, e2, Run.andThen_returns, Run.andThen_returns]
  dsimp only
  rw [if_pos (Or.inr a5), if_pos (Or.inr c5), ← e]
  rw [(pass2_same s1 s2 0 n { p2 with sp := 0 } (by show p2.env.1.step T o = none; rw [a4]; exact hfin)).1]

theorem resolve_nested_same {T : Tables} {o : Options} (hT : KnownClasses T) (ho : o.markup = none) (s1 s2 : Nat → Nat)
    {t lead : List Char} {is : Isolates} (ht : firstParagraph T o t = lead ++ is.chars) (h : NestedIsolates T o lead is) :
    ∃ N, ∀ n, N ≤ n → resolveParagraph T o s1 (utf8 t) n = resolveParagraph T o s2 (utf8 t) n := by
  obtain ⟨fin, h1, h2, -⟩ := scanner_feeds ho (known_notNull hT) s1 (utf8 t)
  have hi : GoodIn T o False is false := goodIn_of hT is false h.good (fun c hc => h.outer c (by rw [classes_append]; exact List.mem_append_right _ hc))
    (fun a _ => a)
  have hl : ∀ c ∈ lead, PlainClass False (charClass T o c) := by
    intro c hc
    exact ⟨charClass_known hT o c, h.outer _ (List.mem_map_of_mem (List.mem_append_left _ hc)), fun a => a.elim⟩
  have hq : QuietText (classes T o (lead ++ is.outer)) := h.numbersOutside
  have hr : Ready False (initialOuterScrap o false) none (classes T o (lead ++ is.outer)) := by
    refine ⟨Or.inl rfl, ?_, (by decide : cNULL ≠ cAL), fun _ => ⟨Or.inl rfl, fun _ => rfl, quiet_numbers hq⟩, fun h => absurd rfl h⟩
    unfold initialOuterScrap Scrap.e
    dsimp only
    split <;> simp
  obtain ⟨os, -, -, e, -⟩ := emit_nest is false lead (initialOuterScrap o false) none [] hr (fun _ => ⟨fun _ => ⟨rfl, rfl⟩, hq⟩)
    (fun h => absurd rfl h) h.numbers hl hi rfl
  have hscr : emit T o ((lead ++ is.chars).map token) (initialOuterScrap o false) none [] = scrapsOf T o (utf8 t) := by
    rw [scrapsOf, paragraph_text, ht]
    rfl
  have hz : (initialOuterScrap o false).clz = cNULL := rfl
  have hr0 : (initialOuterScrap o false).r = 0 := rfl
  rw [hscr, if_pos hz, hr0, Nat.zero_add, Nat.zero_add, ← ht] at e
  have hfar : Far 0 (scrapsOf T o (utf8 t)) := by
    have := e.far 0 [] (by omega) ⟨trivial, fun _ => rfl, by omega⟩
    simpa using this
  exact whole_same (P := fun pre suf => ∃ x, Outline suf x ∧ Good1K False 0 (utf8 (firstParagraph T o t)).length (kidsOf os) pre x) s1 s2 h1 (ended_atRest h2)
    (outline_inv (good1K_inv False 0 _ (kidsOf os)) good1K_stroll) hfar
    ⟨os, e.outline, ⟨⟨by simpa using e.fine, by simpa using e.num, fun a => a.elim, by simp⟩, rfl, fun a => a.elim⟩⟩

end Uax.Bidi
