import Verif.BidiIsoScan
import Verif.BidiGoroutine
import Verif.SpecIsolates
import Verif.BidiEndless

/-
Texts with isolates are resolved: from the scanner's handlers for brackets and
the outline of the scraps to the result of the parser.
-/
namespace Uax.Bidi
open Spec

/-- The handlers hold opening brackets. -/
def Sound (sc : Scanner) : Prop := ∀ h ∈ sc.handlers, h.Openings

theorem sound_modify {hs : List Handler} (i : Nat) {f : Handler → Handler} (hf : ∀ h, h.Openings → (f h).Openings)
    (h : ∀ x ∈ hs, x.Openings) : ∀ x ∈ setHandler hs i f, x.Openings := by
  intro x hx
  unfold setHandler at hx
  rcases mem_modify hx with hx | ⟨y, hy, rfl⟩
  · exact h x hx
  · exact hf y (h y hy)

theorem sound_switch {sc : Scanner} (h : Sound sc) (s : Scrap) : Sound (isolatingRunSwitch sc s) := by
  have h1 : ∀ x ∈ setHandler sc.handlers sc.bd16 (fun h => { h with lastpos := s.l }), x.Openings :=
    sound_modify _ (fun _ hh => hh) h
  unfold isolatingRunSwitch
  split
  · split
    · exact h
    · dsimp only
      split
      · exact h1
      · exact h1
  · intro x hx
    dsimp only at hx
    rw [List.mem_append] at hx
    rcases hx with hx | hx
    · exact sound_modify (f := fun h => { h with next := some sc.handlers.length }) _ (fun _ hh => hh) h x hx
    · rw [List.mem_singleton] at hx
      subst hx
      exact ⟨by simp, by simp⟩

theorem sound_proceed {sc : Scanner} (h : Sound sc) (r : Nat) (la : Scrap) (a : Bool) : Sound (proceed sc r la a) := by
  have hp : ∀ (sc : Scanner) s, Sound sc → Sound (prepareRuleBD16 sc r s) := by
    intro sc s h
    unfold prepareRuleBD16
    split
    · exact h
    · split
      · rename_i hs
        exact sound_modify _ (fun _ hh => openings_push r s hh) h
      · exact sound_modify _ (fun _ hh => openings_find r s hh) h
  unfold proceed
  dsimp only
  exact hp _ _ h

theorem sound_nextRune {T : Tables} {o : Options} {sc : Scanner} (h : Sound sc) (pos : Nat) : Sound (nextRune T o sc pos).2 := by
  have hr : Sound (readRune T o sc).2 := by
    unfold readRune
    split
    · exact h
    · dsimp only
      split <;> exact h
  unfold nextRune
  dsimp only
  repeat' split
  all_goals first
    | exact hr
    | exact h

theorem sound_scanLoop {T : Tables} {o : Options} {sc : Scanner} (h : Sound sc) : Sound (scanLoop T o sc) := by
  unfold scanLoop
  have hn := sound_nextRune (T := T) (o := o) h sc.current.r
  split
  · rename_i sc' he
    rw [he] at hn
    dsimp only
    split
    · exact sound_switch hn _
    · exact hn
  · rename_i sc' he
    rw [he] at hn
    dsimp only
    split
    · split
      · split
        · exact sound_switch hn _
        · exact hn
      · exact sound_proceed hn _ _ _
    · exact hn

theorem sound_steps {T : Tables} {o : Options} : ∀ (n : Nat) {sc : Scanner}, Sound sc → Sound (sc.steps T o n) := by
  intro n
  induction n with
  | zero => intro sc h; exact h
  | succ n ih =>
    intro sc h
    rw [Scanner.steps]
    cases hs : sc.step T o with
    | none => exact h
    | some s1 =>
      refine ih ?_
      unfold Scanner.step at hs
      split at hs
      · simp only [Option.some.injEq] at hs; subst hs; exact sound_scanLoop h
      · simp only [Option.some.injEq] at hs; subst hs; exact sound_proceed h _ _ _
      · cases hs

theorem sound_recv {T : Tables} {o : Options} {sched : Nat → Nat} {e e' : Scanner × Nat} {x : Scrap} (h : Sound e.1)
    (hr : (scannerEnv T o sched).recv e = some (x, e')) : Sound e'.1 := by
  obtain ⟨sc, i⟩ := e
  change ((sc.steps T o (3 * sc.input.length + 4)).receive).map _ = _ at hr
  have hk := sound_steps (T := T) (o := o) (3 * sc.input.length + 4) h
  generalize sc.steps T o (3 * sc.input.length + 4) = s1 at hr hk
  unfold Scanner.receive at hr
  split at hr
  all_goals
    simp only [Option.map_some, Option.map_none, Option.some.injEq, Prod.mk.injEq, reduceCtorEq] at hr
  all_goals
    rw [← hr.2]
    exact hk

theorem sound_feeds {T : Tables} {o : Options} {sched : Nat → Nat} {e e' : Scanner × Nat} {ss : List Scrap} (h : Sound e.1)
    (hf : Feeds (scannerEnv T o sched) e ss e') : Sound e'.1 := by
  induction hf with
  | stop hr _ => exact sound_recv h hr
  | more hr _ _ ih => exact ih (sound_recv h hr)

/-! ### Texts of characters -/

/-- The token of a character. -/
def token (c : Char) : Nat × Nat := (c.toNat, (utf8 [c]).length)

/-- The tokens of an isolate. -/
def pieceOf (i : Isolate) : Piece := ⟨token i.opening, i.text.map token, token i.closing, i.after.map token⟩

theorem token_width (c : Char) : 0 < (token c).2 := by
  show 0 < (utf8 [c]).length
  rw [utf8_one]
  exact List.length_pos_iff.mpr (Utf8.encodeNat_ne c.toNat)

theorem tokens_class (T : Tables) (o : Options) (t : List Char) : classesIn T o (t.map token) = classes T o t := by
  rw [classesIn, classes, List.map_map]
  congr 1
  funext c
  exact runeClass_char T o c

theorem tokens_width (t : List Char) : widthOf (t.map token) = (utf8 t).length := width_text t

theorem tokens_withIsolates (lead : List Char) (is : List Isolate) :
    (withIsolates lead is).map token = lead.map token ++ ofPieces (is.map pieceOf) := by
  unfold withIsolates ofPieces
  rw [List.map_append, List.map_flatMap, List.flatMap_map]
  congr 2
  funext i
  simp [pieceOf, Piece.all]

theorem tokens_outside (T : Tables) (o : Options) (lead : List Char) (is : List Isolate) :
    classesIn T o (lead.map token) ++ outerOf T o (is.map pieceOf) = classes T o (outside lead is) := by
  unfold outside outerOf
  rw [tokens_class, classes, classes, List.map_append, List.map_flatMap, List.flatMap_map]
  congr 2
  funext i
  exact tokens_class T o i.after

theorem spans_pieces : ∀ (is : List Isolate) (pos : Nat), spansFrom pos (is.map pieceOf) = isolateSpans pos is := by
  intro is
  induction is with
  | nil => intro pos; rfl
  | cons i is ih =>
    intro pos
    have e1 : (pieceOf i).inner = (i.opening :: i.text ++ [i.closing]).map token := by simp [pieceOf, Piece.inner]
    have e2 : (pieceOf i).all = (i.opening :: i.text ++ i.closing :: i.after).map token := by simp [pieceOf, Piece.all]
    rw [List.map_cons, spansFrom, isolateSpans, ih, e1, e2, tokens_width, tokens_width]

theorem runs_tile : ∀ (sps : List (Nat × Nat)) (runs : List (List Scrap)), Runs sps runs → RunsTile sps runs := by
  intro sps
  induction sps with
  | nil => intro runs h; cases runs with
    | nil => trivial
    | cons _ _ => exact h
  | cons sp sps ih => intro runs h; cases runs with
    | nil => exact h
    | cons _ _ => exact ⟨h.1, ih _ h.2⟩

/-- The conditions on the classes of a text with isolates, as far as they are needed for tiles. -/
theorem pieces_good {T : Tables} {o : Options} (hT : KnownClasses T) {lead : List Char} {is : List Isolate} (tile : Prop)
    (h : FlatIsolates T o lead is) (h3 : tile → cAN ∉ classes T o (withIsolates lead is)) :
    (∀ x ∈ lead.map token, PlainClass tile (runeClass T o x.1) ∧ 0 < x.2) ∧ ∀ p ∈ is.map pieceOf, GoodPiece T o tile p := by
  have plain : ∀ (t : List Char), Spec.NoIsolates (classes T o t) → (∀ c ∈ t, c ∈ withIsolates lead is) →
      ∀ x ∈ t.map token, PlainClass tile (runeClass T o x.1) ∧ 0 < x.2 := by
    intro t hn hm x hx
    rw [List.mem_map] at hx
    obtain ⟨c, hc, rfl⟩ := hx
    refine ⟨?_, token_width c⟩
    show PlainClass tile (runeClass T o c.toNat)
    rw [runeClass_char]
    refine ⟨charClass_known hT o c, hn _ (List.mem_map_of_mem hc), fun ht he => h3 ht ?_⟩
    rw [← he]
    exact List.mem_map_of_mem (hm c hc)
  have part : ∀ i ∈ is, ∀ c, c ∈ i.text ∨ c ∈ i.after → c ∈ withIsolates lead is := by
    intro i hi c hc
    unfold withIsolates
    rw [List.mem_append, List.mem_flatMap]
    refine Or.inr ⟨i, hi, ?_⟩
    rcases hc with hc | hc <;> simp [hc]
  have outer : ∀ t : List Char, (∀ c ∈ t, c ∈ outside lead is) → Spec.NoIsolates (classes T o t) := by
    intro t ht c hc
    rw [classes, List.mem_map] at hc
    obtain ⟨d, hd, rfl⟩ := hc
    exact h.outer _ (List.mem_map_of_mem (ht d hd))
  refine ⟨plain lead (outer lead fun c hc => ?_) (fun c hc => ?_), fun p hp => ?_⟩
  · unfold outside; exact List.mem_append_left _ hc
  · unfold withIsolates; exact List.mem_append_left _ hc
  · rw [List.mem_map] at hp
    obtain ⟨i, hi, rfl⟩ := hp
    have hop : runeClass T o (pieceOf i).op.1 = charClass T o i.opening := runeClass_char T o i.opening
    refine ⟨?_, token_width _, ?_, fun x hx => ⟨plain i.text (h.inside i hi) (fun c hc => part i hi c (Or.inl hc)) x hx, ?_⟩, ?_, token_width _, ?_, ?_⟩
    · rw [hop]; exact h.opening i hi
    · intro e
      exact h.filled i hi (List.map_eq_nil_iff.mp e)
    · have hb := h.brackets i hi
      have hm : runeClass T o x.1 ∈ classes T o i.text := by
        rw [← tokens_class]
        exact List.mem_map_of_mem hx
      exact ⟨fun e => hb.1 (e ▸ hm), fun e => hb.2 (e ▸ hm)⟩
    · show runeClass T o i.closing.toNat = cPDI
      rw [runeClass_char]; exact h.closing i hi
    · refine plain i.after (outer _ fun c hc => ?_) (fun c hc => part i hi c (Or.inr hc))
      unfold outside
      rw [List.mem_append, List.mem_flatMap]
      exact Or.inr ⟨i, hi, hc⟩
    · have := h.numbersInside i hi
      unfold isoDir
      rw [hop]
      show NumbersLTR _ (classesIn T o (i.text.map token))
      rw [tokens_class]
      exact this

/-- The outline of a text with isolates. -/
theorem outline_text {T : Tables} {o : Options} (hT : KnownClasses T) {t lead : List Char} {is : List Isolate} (tile : Prop)
    (ht : firstParagraph T o t = withIsolates lead is) (h : FlatIsolates T o lead is)
    (h3 : tile → cAN ∉ classes T o (withIsolates lead is)) :
    ∃ os, Outlined tile 0 (utf8 (firstParagraph T o t)).length ((classes T o (firstParagraph T o t)).head? ≠ some cNSM)
      (isolateSpans (utf8 lead).length is) (OwnRuns T o (utf8 lead).length (is.map pieceOf)) (scrapsOf T o (utf8 t)) os := by
  obtain ⟨hl, hps⟩ := pieces_good hT tile h h3
  have hq : QuietText (classesIn T o (lead.map token) ++ outerOf T o (is.map pieceOf)) := by
    rw [tokens_outside]
    exact h.numbersOutside
  have hr : Ready tile (initialOuterScrap o false) none (classesIn T o (lead.map token) ++ outerOf T o (is.map pieceOf)) := by
    refine ⟨Or.inl rfl, ?_, (by decide : cNULL ≠ cAL), fun _ => ⟨Or.inl rfl, fun _ => rfl, quiet_numbers hq⟩, fun h => absurd rfl h⟩
    unfold initialOuterScrap Scrap.e
    dsimp only
    split <;> simp
  have hpar : paragraph T o (runesOf (utf8 t)) = lead.map token ++ ofPieces (is.map pieceOf) := by
    rw [← tokens_withIsolates, ← ht]
    exact paragraph_text T o t
  have hcl : classesIn T o (lead.map token ++ ofPieces (is.map pieceOf)) = classes T o (firstParagraph T o t) := by
    rw [← tokens_withIsolates, ← ht, tokens_class]
  obtain ⟨os, -, e⟩ := emit_outline (is.map pieceOf) (lead.map token) (initialOuterScrap o false) none [] hr (fun _ => ⟨rfl, rfl⟩) hq
    (fun h => absurd rfl h) (by rw [hcl, ht]; exact h.numbers) hl hps (by
      intro p hp
      rw [← List.map_dropLast, List.mem_map] at hp
      obtain ⟨i, hi, rfl⟩ := hp
      intro e
      exact h.apart i hi (List.map_eq_nil_iff.mp e)) rfl
  refine ⟨os, ?_⟩
  rw [hcl, ← tokens_withIsolates, ← ht, tokens_width, tokens_width, spans_pieces] at e
  have hz : (initialOuterScrap o false).clz = cNULL := rfl
  have hr : (initialOuterScrap o false).r = 0 := rfl
  rw [if_pos hz, hr, Nat.zero_add, Nat.zero_add] at e
  rw [scrapsOf, paragraph_text]
  refine ⟨e.outline, e.room, e.fine, e.num, fun a b => e.tiles a (fun _ => b), e.housed, e.runs, e.own⟩

/-- A text with isolates is resolved. -/
theorem resolve_isolates {T : Tables} {o : Options} (hT : KnownClasses T) (ho : o.markup = none) (sched : Nat → Nat)
    {t lead : List Char} {is : List Isolate} (tile : Prop)
    (ht : firstParagraph T o t = withIsolates lead is) (h : FlatIsolates T o lead is)
    (h3 : tile → cAN ∉ classes T o (firstParagraph T o t) ∧ (classes T o (firstParagraph T o t)).head? ≠ some cNSM) :
    ∃ N p, resolveParagraph T o sched (utf8 t) N = .returns (levelsOf o p.stack, p) ∧
      Ended p.env.1 (scrapsOf T o (utf8 t)) ∧
      (tile → Tiles 0 (utf8 (firstParagraph T o t)).length p.stack ∧ RunsTile (isolateSpans (utf8 lead).length is) (nestedRuns p.stack) ∧
        ∀ s ∈ p.stack, Within s ∧ Fine tile s) ∧ p.stack ≠ [] ∧ OwnRuns T o (utf8 lead).length (is.map pieceOf) (nestedRuns p.stack) := by
  obtain ⟨fin, h1, h2, -⟩ := scanner_feeds ho (known_notNull hT) sched (utf8 t)
  obtain ⟨os, e⟩ := outline_text hT tile ht h (fun ht' => by rw [← ht]; exact (h3 ht').1)
  have hs : Sound fin := sound_feeds (e := (newScanner o (utf8 t), 0)) (by
    intro x hx
    have : x = {} := by simpa [newScanner] using hx
    subst this
    exact ⟨by simp, by simp⟩) h1
  obtain ⟨N, p, e1, e2, e3⟩ := resolve_outline (resting_brackets T o sched fin.pc) (o := o) h1 e.room e.outline
    (K := kidsOf os) ⟨⟨by simpa using e.fine, by simpa using e.num, fun a => by simpa using e.tiles a (h3 a).2, by simp⟩, rfl, by simpa using e.housed⟩
    ⟨⟨ended_atRest h2, by
      intro x hx p hp
      exact ⟨Or.inr ((hs x hx).2 p hp), trivial⟩⟩, rfl⟩
  obtain ⟨⟨g1, g2, g3⟩, g4, g5⟩ := e2
  rw [List.append_nil] at g1 g3 g4 g5 g2
  refine ⟨N, p, e1, ?_, fun a => ⟨g2 a, ?_, fun s hs => ⟨g5 a s hs, (g1 s hs).1⟩⟩, g3, ?_⟩
  · unfold Ended at h2 ⊢
    rw [e3.2, h2]
  · have := runs_tile _ _ (e.runs a)
    rw [← g4] at this
    exact this
  · have := e.own
    rw [← g4] at this
    exact this

end Uax.Bidi
