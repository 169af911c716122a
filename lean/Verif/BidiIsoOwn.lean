import Verif.BidiIsoResolve

/-
The nested run of each isolate is that of its text as a paragraph, moved to its place.
-/
namespace Uax.Bidi

open Spec

theorem own_at {T : Tables} {o : Options} : ∀ (pre : List Isolate) (i : Isolate) (post : List Isolate) (pos : Nat) (runs : List (List Scrap)),
    OwnRuns T o pos ((pre ++ i :: post).map pieceOf) runs →
    ∃ run, runs[pre.length]? = some run ∧
      OwnRun T o (pos + (utf8 (withIsolates [] pre)).length) (pieceOf i) run := by
  intro pre
  induction pre with
  | nil =>
    intro i post pos runs h
    cases runs with
    | nil => exact h.elim
    | cons run runs => exact ⟨run, rfl, h.1⟩
  | cons j pre ih =>
    intro i post pos runs h
    cases runs with
    | nil => exact h.elim
    | cons run runs =>
      obtain ⟨r, e1, e2⟩ := ih i post _ runs h.2
      refine ⟨r, by simpa using e1, ?_⟩
      have e : widthOf (pieceOf j).all = (utf8 (j.opening :: j.text ++ j.closing :: j.after)).length := by
        rw [← tokens_width]
        congr 1
        simp [pieceOf, Piece.all]
      rw [e] at e2
      have e3 : (utf8 (withIsolates [] (j :: pre))).length =
          (utf8 (j.opening :: j.text ++ j.closing :: j.after)).length + (utf8 (withIsolates [] pre)).length := by
        rw [← tokens_width, ← tokens_width, ← tokens_width, ← widthOf_append, ← List.map_append]
        simp [withIsolates]
      rw [e3, ← Nat.add_assoc]
      exact e2

/-- Of the options the scraps depend on the treatment of upper case letters only. -/
theorem emit_options {T : Tables} {o o' : Options} (h : ∀ r, runeClass T o r = runeClass T o' r) : ∀ (inp : List (Nat × Nat)) (cur : Scrap) (a : Option Nat) (st : List DirContext),
    emit T o inp cur a st = emit T o' inp cur a st := by
  intro inp
  induction inp with
  | nil => intro cur a st; rw [emit, emit]
  | cons x inp ih =>
    intro cur a st
    obtain ⟨r, n⟩ := x
    rw [emit, emit]
    simp only [h, ih]

/-- The text of an isolate is a paragraph. -/
theorem own_paragraph {T : Tables} {o : Options} {t lead : List Char} {is : List Isolate} (ht : firstParagraph T o t = withIsolates lead is) {i : Isolate}
    (hi : i ∈ is) (c : Class) : firstParagraph T (ownOptions o c) i.text = i.text := by
  have : firstParagraph T (ownOptions o c) i.text = firstParagraph T o i.text := rfl
  rw [this]
  unfold firstParagraph
  have all : ∀ (l : List Char) (p : Char → Bool), (∀ x ∈ l, p x = true) → l.takeWhile p = l := by
    intro l p hl
    induction l with
    | nil => rfl
    | cons x l ih => rw [List.takeWhile_cons_of_pos (hl x (by simp)), ih (fun y hy => hl y (by simp [hy]))]
  refine all _ _ ?_
  intro x hx
  have hm : x ∈ firstParagraph T o t := by
    rw [ht]
    unfold withIsolates
    rw [List.mem_append, List.mem_flatMap]
    exact Or.inr ⟨i, hi, by simp [hx]⟩
  have tw : ∀ (l : List Char) (p : Char → Bool), x ∈ l.takeWhile p → p x = true := by
    intro l p hl
    induction l with
    | nil => cases hl
    | cons y l ih =>
      rw [List.takeWhile_cons] at hl
      split at hl
      · rcases List.mem_cons.mp hl with e | e
        · subst e; assumption
        · exact ih e
      · cases hl
  exact tw _ _ hm

/-- The text of an isolate as a paragraph, and the run of the isolate. -/
theorem resolve_own {T : Tables} {o : Options} (hT : KnownClasses T) (ho : o.markup = none) (sched : Nat → Nat)
    {t lead : List Char} {is : List Isolate} (ht : firstParagraph T o t = withIsolates lead is) (h : FlatIsolates T o lead is)
    {i : Isolate} (hi : i ∈ is) (hn : (classes T o i.text).head? ≠ some cNSM) {pos : Nat} {run : List Scrap} (hr : OwnRun T o pos (pieceOf i) run) :
    ∃ rl, Resolves T (ownOptions o (charClass T o i.opening)) sched (utf8 i.text) rl ∧
      movedBy 0 run = (charClass T o i.opening, pos, pos + (utf8 [i.opening]).length) ::
        movedBy (pos + (utf8 [i.opening]).length) rl.scraps.tail.dropLast ++
        [(cPDI, pos + (utf8 (i.opening :: i.text)).length, pos + (utf8 (i.opening :: i.text ++ [i.closing])).length)] := by
  obtain ⟨A, Z, body, ys, zs, r1, r2, r3, r4, r5, r6, r7, r8, r9, r10, r11, r12⟩ := hr
  have hop : runeClass T o (pieceOf i).op.1 = charClass T o i.opening := runeClass_char T o i.opening
  have hb : classesIn T o (pieceOf i).body = classes T o i.text := tokens_class T o i.text
  have hw : (pieceOf i).op.2 = (utf8 [i.opening]).length := rfl
  have hz : (pieceOf i).cl.2 = (utf8 [i.closing]).length := rfl
  have hbw : widthOf (pieceOf i).body = (utf8 i.text).length := tokens_width i.text
  rw [hb] at r12
  rw [hop] at r2 r3
  rw [hw] at r5
  rw [hbw] at r7 r8
  rw [hz] at r8
  have hpar := own_paragraph ht hi (charClass T o i.opening)
  have hcl : classes T (ownOptions o (charClass T o i.opening)) i.text = classes T o i.text := rfl
  obtain ⟨fin, h1, -, -⟩ := scanner_feeds (T := T) (o := ownOptions o (charClass T o i.opening)) ho (known_notNull hT) sched (utf8 i.text)
  have hg := good_text hT (o := ownOptions o (charClass T o i.opening)) i.text False (by rw [hpar]; exact h.inside i hi)
    (by rw [hpar]; exact numbersLTR_left (h.numbersInside i hi)) (fun h => h.elim)
  have hown : scrapsOf T (ownOptions o (charClass T o i.opening)) (utf8 i.text) = ownScraps T o (charClass T o i.opening) (pieceOf i).body := by
    unfold scrapsOf ownScraps
    rw [paragraph_text, hpar]
    exact emit_options (o := ownOptions o (charClass T o i.opening)) (o' := o) (fun _ => rfl) _ _ _ _
  have hbr : ∀ s ∈ scrapsOf T (ownOptions o (charClass T o i.opening)) (utf8 i.text), NoBracket s := by
    unfold scrapsOf
    rw [paragraph_text, hpar]
    refine emit_noBracket _ _ _ _ (by unfold NoBracket isBracket initialOuterScrap; rfl) ?_
    intro x hx
    rw [List.mem_map] at hx
    obtain ⟨c, hc, rfl⟩ := hx
    dsimp only
    rw [runeClass_char]
    have hm : charClass T o c ∈ classes T o i.text := List.mem_map_of_mem hc
    have hb := h.brackets i hi
    exact ⟨fun e => hb.1 (by rw [← e]; exact hm), fun e => hb.2 (by rw [← e]; exact hm)⟩
  have hA : A.clz = (initialOuterScrap (ownOptions o (charClass T o i.opening)) true).clz ∧ A.e = (initialOuterScrap (ownOptions o (charClass T o i.opening)) true).e := by
    rw [r2, r3]
    rcases h.opening i hi with e | e <;> rw [e] <;> exact ⟨rfl, rfl⟩
  obtain ⟨N, p, rs, ws, k1, k2, k3, k4⟩ := own_run h1 hA.1 hA.2 hg hbr (by rw [hown, ← r2]; exact r12 hn) r9 r10 r11
  refine ⟨_, resolves_of k1, ?_⟩
  have hk : movedBy 0 ws = movedBy A.r rs := by
    have := congrArg (List.map fun k : Class × Nat × Nat × Class => (k.1, k.2.1, k.2.2.1)) k4
    rw [List.map_map, List.map_map] at this
    exact this.symm
  have hd : (levelsOf (ownOptions o (charClass T o i.opening)) p.stack).scraps.tail.dropLast = rs := by
    unfold levelsOf
    dsimp only
    rw [k2, List.cons_append, List.tail_cons, List.dropLast_concat]
  have l1 : (utf8 (i.opening :: i.text)).length = (utf8 [i.opening]).length + (utf8 i.text).length := utf8_len _ _
  have l2 : (utf8 (i.opening :: i.text ++ [i.closing])).length = (utf8 [i.opening]).length + (utf8 i.text).length + (utf8 [i.closing]).length := by
    rw [← tokens_width, ← tokens_width, ← tokens_width, ← tokens_width, ← widthOf_append, ← widthOf_append, ← List.map_append, ← List.map_append]
    simp
  rw [hd, l1, l2, r1, k3, ← r5, ← hk]
  unfold movedBy
  rw [List.map_append, List.map_cons, List.map_cons, List.map_nil]
  simp only [Nat.add_zero, r2, r4, r6, r7, r8, List.cons_append]
  rw [r5]
  simp only [Nat.add_assoc]

end Uax.Bidi
