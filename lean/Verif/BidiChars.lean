import Verif.BidiSame
import Verif.SpecBidiText
import Verif.GStringProofs

/-
From texts of characters to the tokens of the scanner.
-/
namespace Uax.Bidi
open Spec

/-- The tokens of a text: its characters, with the lengths of their encodings. -/
theorem scanRunes_text : ∀ (t : List Char) (n : Nat), (utf8 t).length ≤ n →
    scanRunes n (utf8 t) = t.map fun c => (c.toNat, (utf8 [c]).length) := by
  intro t
  induction t with
  | nil => intro n _; cases n <;> rfl
  | cons c t ih =>
    intro n hn
    have hpos := List.length_pos_iff.mpr (Utf8.encodeNat_ne c.toNat)
    rw [utf8_cons] at hn ⊢
    rw [List.length_append] at hn
    obtain ⟨n, rfl⟩ : ∃ k, n = k + 1 := ⟨n - 1, by omega⟩
    have hd := Utf8.decode_encode c.toNat (Utf8.char_scalar c) (utf8 t)
    obtain ⟨x, xs, hx⟩ := List.exists_cons_of_ne_nil (l := Utf8.encodeNat c.toNat ++ utf8 t) (by simp [Utf8.encodeNat_ne])
    rw [hx, scanRunes]
    · rw [← hx]
      rw [hd, if_neg, List.drop_left, ih n (by omega), List.map_cons, utf8_one]
      rintro ⟨h1, h2⟩
      change c.toNat = _ at h1
      change (Utf8.encodeNat c.toNat).length = 1 at h2
      rw [h1] at h2
      revert h2
      decide
    · simp

theorem runesOf_text (t : List Char) : runesOf (utf8 t) = t.map fun c => (c.toNat, (utf8 [c]).length) :=
  scanRunes_text t _ (Nat.le_refl _)

theorem paragraph_text (T : Tables) (o : Options) (t : List Char) :
    paragraph T o (runesOf (utf8 t)) = (firstParagraph T o t).map fun c => (c.toNat, (utf8 [c]).length) := by
  rw [runesOf_text, paragraph, firstParagraph, List.takeWhile_map]
  congr 2
  funext c
  simp [isSeparator]

theorem runeClass_char (T : Tables) (o : Options) (c : Char) : runeClass T o c.toNat = charClass T o c := by
  have hc : ∀ d : Char, c.toNat = d.toNat ↔ c = d := fun d => ⟨fun h => Char.ext (UInt32.toNat_inj.mp h), fun h => by rw [h]⟩
  unfold runeClass charClass testingClass testingDelimiter
  simp only [hc]
  cases o.testing <;> cases T.upper c.toNat <;> rcases T.bracket c.toNat with _ | _ | _ <;> simp

theorem classes_text (T : Tables) (o : Options) (t : List Char) :
    classesIn T o (paragraph T o (runesOf (utf8 t))) = classes T o (firstParagraph T o t) := by
  rw [paragraph_text, classesIn, classes, List.map_map]
  congr 1
  funext c
  exact runeClass_char T o c

theorem width_text (t : List Char) : widthOf (t.map fun c => (c.toNat, (utf8 [c]).length)) = (utf8 t).length := by
  induction t with
  | nil => rfl
  | cons c t ih =>
    rw [utf8_cons, List.length_append, ← ih, widthOf, List.map_cons, List.map_cons, List.sum_cons, utf8_one]
    rfl

theorem charClass_known {T : Tables} (h : KnownClasses T) (o : Options) (c : Char) : charClass T o c < 28 := by
  have : T.cls c.toNat < 28 := Nat.lt_of_le_of_lt (h c.toNat) (by decide)
  unfold charClass
  repeat' split
  all_goals first | decide | exact this

/-- The scraps of a text begin a good run. -/
theorem good_text {T : Tables} {o : Options} (hT : KnownClasses T) (t : List Char) (tile : Prop)
    (h1 : Spec.NoIsolates (classes T o (firstParagraph T o t))) (h2 : NumbersLTR cL (classes T o (firstParagraph T o t)))
    (h3 : tile → cAN ∉ classes T o (firstParagraph T o t) ∧ (classes T o (firstParagraph T o t)).head? ≠ some cNSM) :
    Good1 tile (utf8 (firstParagraph T o t)).length [] (scrapsOf T o (utf8 t)) := by
  have hr : Ready tile (initialOuterScrap o false) none (classesIn T o (paragraph T o (runesOf (utf8 t)))) := by
    rw [classes_text]
    refine ⟨Or.inl rfl, ?_, (by decide : cNULL ≠ cAL), fun _ => ⟨Or.inl rfl, fun _ => rfl, h2⟩, fun h => absurd rfl h⟩
    unfold initialOuterScrap Scrap.e
    dsimp only
    split <;> simp
  have hp : ∀ x ∈ paragraph T o (runesOf (utf8 t)), PlainClass tile (runeClass T o x.1) ∧ 0 < x.2 := by
    intro x hx
    rw [paragraph_text, List.mem_map] at hx
    obtain ⟨c, hc, rfl⟩ := hx
    dsimp only
    rw [runeClass_char]
    have hm : charClass T o c ∈ classes T o (firstParagraph T o t) := List.mem_map_of_mem hc
    refine ⟨⟨charClass_known hT o c, h1 _ hm, fun ht he => (h3 ht).1 (he ▸ hm)⟩, ?_⟩
    rw [utf8_one]
    exact List.length_pos_iff.mpr (Utf8.encodeNat_ne c.toNat)
  obtain ⟨a, b, -, -, e⟩ := emit_good (paragraph T o (runesOf (utf8 t))) (initialOuterScrap o false) none [] hr hp
  refine ⟨a, b, fun ht => ?_, by simp⟩
  have := e ht (fun _ => by rw [classes_text]; exact (h3 ht).2)
  rw [paragraph_text, width_text] at this
  have hz : (initialOuterScrap o false).clz = cNULL := rfl
  have hr : (initialOuterScrap o false).r = 0 := rfl
  rw [if_pos hz, hr, Nat.zero_add] at this
  rw [List.nil_append, scrapsOf, paragraph_text]
  exact this

/-- A form of the condition on numbers that can be computed. -/
theorem numbersLTR_of {e : Class} {cs : List Class}
    (h : ∀ i, i < cs.length → cs[i]? = some cEN → lastStrong e (cs.take i) = cL ∧ cAL ∉ cs.take i) : NumbersLTR e cs := by
  intro pre post he
  have := h pre.length (by rw [he]; simp) (by rw [he]; simp)
  rw [he, List.take_left] at this
  exact this

/-- Without isolates in the text there are none among the scraps. -/
theorem emit_plain {T : Tables} {o : Options} : ∀ (inp : List (Nat × Nat)) (cur : Scrap) (a : Option Nat) (st : List DirContext),
    isIsolate cur = false → (∀ x ∈ inp, runeClass T o x.1 ∉ [cLRI, cRLI, cFSI, cPDI]) → NoIsolates (emit T o inp cur a st) := by
  intro inp
  induction inp with
  | nil =>
    intro cur a st h _ s hs
    unfold emit at hs
    split at hs
    · cases hs
    · rw [List.mem_singleton] at hs
      subst hs
      exact h
  | cons x rest ih =>
    obtain ⟨r, n⟩ := x
    intro cur a st h hc
    have hr : ∀ x ∈ rest, runeClass T o x.1 ∉ [cLRI, cRLI, cFSI, cPDI] := fun x hx => hc x (List.mem_cons_of_mem _ hx)
    have hla : isIsolate { clz := rulesW1to3 (runeClass T o r) cur } = false := by
      have h1 : isIsolate { clz := runeClass T o r } = false := by
        have := hc (r, n) (List.mem_cons_self ..)
        simp only [List.mem_cons, List.not_mem_nil, or_false, not_or] at this
        simp only [isIsolate, Bool.or_eq_false_iff, beq_eq_false_iff_ne]
        exact ⟨⟨⟨this.1, this.2.1⟩, this.2.2.1⟩, this.2.2.2⟩
      rcases rules_cases (runeClass T o r) cur with e | ⟨-, e | e⟩ | ⟨-, -, e⟩ | ⟨-, e⟩ | e
      · rw [e]; exact h1
      · rw [e]; exact h
      · rw [h] at e; cases e
      all_goals rw [e]; rfl
    rw [emit]
    dsimp only
    split
    · rw [switch_plain h (show isIsolate (nextScrap cur (runeClass T o r) n) = false from hla)]
      have hi : isIsolate (inheritStrongTypes (nextScrap cur (runeClass T o r) n) cur a) = false := by
        unfold isIsolate
        rw [inherit_clz]
        exact hla
      have := ih (inheritStrongTypes (nextScrap cur (runeClass T o r) n) cur a)
        (if runeClass T o r = cAL then some (nextScrap cur (runeClass T o r) n).l else a) st hi hr
      split
      · exact this
      · intro s hs
        rw [List.mem_cons] at hs
        rcases hs with rfl | hs
        · exact h
        · exact this s hs
    · exact ih _ _ _ h hr

theorem noIsolates_text {T : Tables} {o : Options} (t : List Char) (h : Spec.NoIsolates (classes T o (firstParagraph T o t))) :
    NoIsolates (scrapsOf T o (utf8 t)) := by
  refine emit_plain _ _ _ _ rfl ?_
  intro x hx
  rw [paragraph_text, List.mem_map] at hx
  obtain ⟨c, hc, rfl⟩ := hx
  dsimp only
  rw [runeClass_char]
  exact h _ (List.mem_map_of_mem hc)

end Uax.Bidi
