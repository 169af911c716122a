import Verif.BidiPairs
import Verif.BidiUnlike

/-
Directions of texts with bracket pairs: from the text to the result.
-/
namespace Uax.Bidi
open Spec

/-! ### No nested runs in pass 2 -/

theorem allOf_backs {S : Scrap → Prop} {pre t : List Scrap} {s x : Scrap} (k : Nat) (h : AllOf S pre (s :: t)) (hx : S x) : AllOf S (pre.take k) (pre.drop k ++ x :: t) := by
  have := allOf_replace (m := [s]) h hx
  unfold AllOf at this ⊢
  rw [← List.append_assoc, List.take_append_drop]
  exact this

theorem Inv2B.kids {σ : Type} {E : Env σ} {J : List Scrap → List Scrap → σ → Prop} (hQ : Inv2B E J) :
    Inv2B E (fun pre suf env => J pre suf env ∧ AllOf NoKids pre suf) where
  known h := hQ.known h.1
  closed h := hQ.closed h.1
  emb h := hQ.emb h.1
  walk h hb hp := ⟨hQ.walk h.1 hb hp, by simpa [AllOf] using h.2⟩
  back h := ⟨hQ.back h.1, by simpa [AllOf] using h.2⟩
  n1 := by
    intro pre a b d post c env h hc ha hb hd
    refine ⟨hQ.n1 h.1 hc ha hb hd, allOf_replace (m := [a, b, d]) h.2 (noKids_fuse (h.2 a (by simp)) ?_)⟩
    intro x hx
    simp only [List.mem_cons, List.not_mem_nil, or_false] at hx
    exact h.2 x (by rcases hx with rfl | rfl <;> simp)
  same := by
    intro pre a b post c env h hc ha hb
    refine ⟨hQ.same h.1 hc ha hb, allOf_replace (m := [a, b]) h.2 (noKids_fuse (h.2 a (by simp)) ?_)⟩
    intro x hx
    simp only [List.mem_cons, List.not_mem_nil, or_false] at hx
    exact h.2 x (by rw [hx]; simp)
  absorb := by
    intro pre a b d post env h ha hb hd
    refine ⟨hQ.absorb h.1 ha hb hd, ?_⟩
    refine allOf_replace (m := [b, d]) ?_ ((noKids_keeps2 E).absorb (h.2 b (by simp)) (h.2 d (by simp)) hd)
    simpa [AllOf] using h.2
  n2 := by
    intro pre s t env h hs
    obtain ⟨h1, h2⟩ := hQ.n2 h.1 hs
    have h3 : AllOf NoKids pre ({ s with clz := s.e } :: t) := allOf_replace (m := [s]) h.2 (h.2 s (by simp))
    exact ⟨fun e => ⟨h1 e, h3⟩, fun pre' x e => ⟨h2 pre' x e, by subst e; simpa [AllOf] using h3⟩⟩
  skip h hs hp := ⟨hQ.skip h.1 hs hp, by simpa [AllOf] using h.2⟩
  opening := by
    intro pre s t env pr h hs hp b hb
    exact ⟨hQ.opening h.1 hs hp b hb, allOf_backs _ h.2 (h.2 s (by simp))⟩
  closing := by
    intro pre s t env pr h hs hp
    exact ⟨fun hn => ⟨(hQ.closing h.1 hs hp).1 hn, allOf_backs _ h.2 (h.2 s (by simp))⟩, (hQ.closing h.1 hs hp).2⟩
  neutral := by
    intro pre s t env pr h hs hp hni
    have : AllOf NoKids pre ({ s with clz := cNI } :: t) := allOf_replace (m := [s]) h.2 (h.2 s (by simp))
    exact ⟨hQ.neutral h.1 hs hp hni, by simpa [AllOf] using this⟩
  alone := by
    intro pre s t env h hs hp
    have : AllOf NoKids pre ({ s with clz := cNI } :: t) := allOf_replace (m := [s]) h.2 (h.2 s (by simp))
    exact ⟨hQ.alone h.1 hs hp, by simpa [AllOf] using this⟩

/-! ### The characters of brackets -/

theorem w1_bracket : ∀ (cs : List Class) (prev : Class), (IsBr prev → cs.head? ≠ some cNSM) → NoMarksAfter cs →
    ∀ (i : Nat) (b : Class), (w1 prev cs)[i]? = some b → IsBr b → cs[i]? = some b
  | [], _, _, _, i, b, h, _ => by simp [w1] at h
  | c :: cs, prev, hp, hn, i, b, h, hb => by
    have hn' : NoMarksAfter cs := fun pre x post e => hn (c :: pre) x post (by rw [e]; rfl)
    rw [w1] at h
    have hc : IsBr (if c = cNSM then (if prev ∈ [cLRI, cRLI, cFSI, cPDI] then cON else prev) else c) →
        (if c = cNSM then (if prev ∈ [cLRI, cRLI, cFSI, cPDI] then cON else prev) else c) = c := by
      intro hh
      split
      · rename_i hcn
        rw [if_pos hcn] at hh
        exfalso
        split at hh
        · exact absurd hh (by unfold IsBr; decide)
        · exact hp hh (by rw [hcn]; rfl)
      · rfl
    generalize (if c = cNSM then (if prev ∈ [cLRI, cRLI, cFSI, cPDI] then cON else prev) else c) = c' at h hc
    cases i with
    | zero =>
      rw [List.getElem?_cons_zero, Option.some.injEq] at h
      rw [List.getElem?_cons_zero, ← hc (h ▸ hb), h]
    | succ i =>
      rw [List.getElem?_cons_succ] at h
      rw [List.getElem?_cons_succ]
      refine w1_bracket cs c' ?_ hn' i b h hb
      intro hh hm
      have e := hc hh
      match cs, hm with
      | x :: xs, hm =>
        rw [List.head?_cons, Option.some.injEq] at hm
        subst hm
        have := hn [] c xs rfl
        rw [e] at hh
        exact hh.elim this.1 this.2

theorem letter_strong {T : Tables} {o : Options} (d : Nat → Option Class) : ∀ (t : List Char) (w : Class) (n : Nat),
    (∃ x ∈ t, charClass T o x = cL ∨ charClass T o x = cR) → strongTypes T o d w n t ≠ []
  | [], _, _, ⟨_, h, _⟩ => by cases h
  | c :: t, w, n, ⟨x, hx, h⟩ => by
    rw [strongTypes]
    rw [List.mem_cons] at hx
    rcases hx with rfl | hx
    · have : typeN0 w (charClass T o x) ≠ none := by
        unfold typeN0 strongType
        rcases h with h | h <;> rw [h] <;> simp [cL, cR, cEN, cAN]
      intro he
      rw [List.append_eq_nil_iff] at he
      cases hh : typeN0 w (charClass T o x) with
      | none => exact this hh
      | some y => rw [hh] at he; simp at he
    · intro he
      rw [List.append_eq_nil_iff] at he
      exact letter_strong d t _ _ ⟨x, hx, h⟩ he.2

/-! ### Pairs which are decided -/

/-- The class which the code gives to a pair. -/
def codeClass (T : Tables) (o : Options) (before inside : List Char) : Class :=
  if outer o ∈ letters T o inside ∨ before = [] then outer o else (letters T o before).getLast?.getD cL

theorem codeClass_dir (T : Tables) (o : Options) (before inside : List Char) : codeClass T o before inside = cL ∨ codeClass T o before inside = cR := by
  unfold codeClass
  split
  · rcases outer_cases o with ⟨q, -⟩ | ⟨q, -⟩
    · exact Or.inl q
    · exact Or.inr q
  · cases hg : (letters T o before).getLast? with
    | none => exact Or.inl rfl
    | some x => exact letters_mem (List.mem_of_getLast? hg)

section
variable {T : Tables} {o : Options} {t : List Char} {d : Nat → Option Class}

theorem decided_pair (hal : cAL ∉ classes T o t) (han : cAN ∉ classes T o t) (hnum : NumbersLTR (outer o) (classes T o t)) (hd : RuleN0 T o t d) (h : BracketsDecided T o t)
    {before inside after : List Char} {a b : Char} (ht : t = before ++ a :: (inside ++ b :: after))
    (hm : ((utf8 before).length, (utf8 (before ++ a :: inside)).length) ∈ bd16 true [] (bracketsOf T o 0 t)) :
    letters T o inside ≠ [] ∧ d (utf8 before).length = some (codeClass T o before inside) ∧ d (utf8 (before ++ a :: inside)).length = some (codeClass T o before inside) := by
  have hbr : charClass T o a = cBRACKO := by
    obtain ⟨b1, x1, i1, y1, a1, k1, k2, k3, k4, k5⟩ := pair_split hm
    rw [(prefix_unique (ht.symm.trans k1) k2).2.1]; exact k4
  obtain ⟨before', a', inside', b', after', g1, g2, g3, g4, g5⟩ := h before a _ ht (Or.inl hbr)
  have hbr' : charClass T o b' = cBRACKC := by
    obtain ⟨b1, x1, i1, y1, a1, k1, k2, k3, k4, k5⟩ := pair_split g3
    have e1 : t = (before' ++ a' :: inside') ++ b' :: after' := by rw [g1]; simp
    have e2 : t = (b1 ++ x1 :: i1) ++ y1 :: a1 := by rw [k1]; simp
    rw [(prefix_unique (e1.symm.trans e2) k3).2.1]; exact k5
  have hb : before = before' := by
    rcases g2 with g2 | g2
    · exact g2
    · exfalso
      have e1 : t = (before' ++ a' :: inside') ++ b' :: after' := by rw [g1]; simp
      have := (prefix_unique (ht.symm.trans e1) (by rw [g2])).2.1
      rw [this, hbr'] at hbr
      exact absurd hbr (by decide)
  subst hb
  obtain ⟨d1, -, -⟩ := bd16_nodup true (bracketsOf T o 0 t) [] 0 (increasing_brackets _ 0) (by simp) (by simp)
  have hq := unique_of_nodup d1 hm g3 rfl
  injection hq with _ hq
  obtain ⟨-, ha, -⟩ := prefix_unique (ht.symm.trans g1) rfl
  subst ha
  have hins : inside = inside' := by
    have e1 : t = (before ++ a :: inside) ++ b :: after := by rw [ht]; simp
    have e2 : t = (before ++ a :: inside') ++ b' :: after' := by rw [g1]; simp
    have := (prefix_unique (e1.symm.trans e2) hq).1
    simpa using this
  subst hins
  have hne : letters T o inside ≠ [] := by
    obtain ⟨x, hx, hk⟩ := g4
    refine List.ne_nil_of_mem (a := charClass T o x) ?_
    rw [letters, List.mem_filter]
    exact ⟨List.mem_map_of_mem hx, by simpa using hk⟩
  obtain ⟨r1, r2⟩ := hd.2 before a inside b after ht hm
  have hs := letter_strong (T := T) (o := o) (fun _ => none) inside (lastLetter T o before) 0 g4
  have : ∃ c, d (utf8 before).length = some c := by
    rw [r1]
    unfold n0
    by_cases he : outer o ∈ strongTypes T o (fun _ => none) (lastLetter T o before) 0 inside
    · exact ⟨_, if_pos he⟩
    · exact ⟨_, (if_neg he).trans (if_neg hs)⟩
  obtain ⟨c, hc⟩ := this
  have hcc := rule_letters hal han hnum hd ht hm hc hne g5
  rw [hcc] at hc
  exact ⟨hne, hc, r2.trans hc⟩

/-- All brackets have directions. -/
theorem decided_strongs (hal : cAL ∉ classes T o t) (han : cAN ∉ classes T o t) (hnum : NumbersLTR (outer o) (classes T o t)) (hd : RuleN0 T o t d) (h : BracketsDecided T o t) :
    ∀ x, d x = none ∨ d x = some cL ∨ d x = some cR := by
  intro x
  by_cases hp : ∃ p q, (p, q) ∈ bd16 true [] (bracketsOf T o 0 t) ∧ (x = p ∨ x = q)
  · obtain ⟨p, q, hm, he⟩ := hp
    obtain ⟨before, a, inside, b, after, k1, k2, k3, -, -⟩ := pair_split hm
    subst k2 k3
    obtain ⟨-, g1, g2⟩ := decided_pair hal han hnum hd h k1 hm
    right
    rcases he with rfl | rfl
    · rw [g1]
      exact (codeClass_dir T o before inside).imp (congrArg some) (congrArg some)
    · rw [g2]
      exact (codeClass_dir T o before inside).imp (congrArg some) (congrArg some)
  · left
    exact hd.1 x fun p q hm => ⟨fun e => hp ⟨p, q, hm, Or.inl e⟩, fun e => hp ⟨p, q, hm, Or.inr e⟩⟩

theorem decided_char (hal : cAL ∉ classes T o t) (han : cAN ∉ classes T o t) (hnum : NumbersLTR (outer o) (classes T o t)) (hd : RuleN0 T o t d) (h : BracketsDecided T o t)
    {u w : List Char} {c : Char} (ht : t = u ++ c :: w) (hc : IsBr (charClass T o c)) : d (utf8 u).length = some cL ∨ d (utf8 u).length = some cR := by
  obtain ⟨before, a, inside, b, after, g1, g2, g3, -, -⟩ := h u c w ht hc
  obtain ⟨-, k1, k2⟩ := decided_pair hal han hnum hd h g1 g3
  rcases g2 with rfl | rfl
  · rw [k1]; exact (codeClass_dir T o u inside).imp (congrArg some) (congrArg some)
  · rw [k2]; exact (codeClass_dir T o before inside).imp (congrArg some) (congrArg some)

end

theorem dirs_perChar {d : Nat → Option Class} (hd : ∀ x, (d x).getD cON ∈ [cON, cL, cR]) : ∀ (l : List Char) (p : Nat), Dirs (perChar d p l)
  | [], _, _, h => by cases h
  | _ :: l, p, k, h => by
    rw [perChar, List.mem_cons] at h
    rcases h with rfl | h
    · exact hd p
    · exact dirs_perChar hd l _ k h

theorem w7_length : ∀ (xs : List Class) (q : Class), (w7 q xs).length = xs.length
  | [], _ => rfl
  | x :: xs, q => by rw [w7, List.length_cons, w7_length xs, List.length_cons]

theorem pairs_length {T : Tables} {o : Options} {t : List Char} {e : Class} {d : Nat → Option Class} (he : e = cL ∨ e = cR) (h1 : PairClasses (classes T o t))
    (h2 : NumbersLTR e (classes T o t)) : (resolvedPairs e (perChar d 0 t) (classes T o t)).length = t.length := by
  have hl : (classes T o t).length = t.length := by unfold classes; rw [List.length_map]
  have hw : (weak e (classes T o t)).length = t.length := by
    unfold weak w6
    rw [w7_length, List.length_map, w5_length, w4_length]
    rw [(pair_scanned he h1 h2).1]
    unfold w3
    rw [List.length_map, w1_length, hl]
  unfold resolvedPairs
  rw [n12_length, set_length (by rw [perChar_length, hw]), hw]

/-- The classes of the bytes after resolution. -/
theorem resolve_pairs {T : Tables} {o : Options} (hT : KnownClasses T) (hB : BracketTable T) (ho : o.markup = none) (sched : Nat → Nat) (t : List Char)
    (h1 : PairClasses (classes T o (firstParagraph T o t))) (h2 : NumbersLTR (outer o) (classes T o (firstParagraph T o t)))
    (h3 : (classes T o (firstParagraph T o t)).head? ≠ some cNSM) (h4 : (utf8 (firstParagraph T o t)).length < 65536)
    (h5 : NeverFull [] (bracketsOf T o 0 (firstParagraph T o t))) (h6 : NoAngle (firstParagraph T o t))
    (d : Nat → Option Class) (hd : RuleN0 T o (firstParagraph T o t) d) (h7 : BracketsDecided T o (firstParagraph T o t)) (h8 : NoMarksAfter (classes T o (firstParagraph T o t)))
    (h9 : SeparatorsSettled (outer o) (setBrackets (perChar d 0 (firstParagraph T o t)) (w5 cON (w4 cON (w3 (w2 (outer o) (w1 (outer o) (classes T o (firstParagraph T o t))))))))
      (resolvedPairs (outer o) (perChar d 0 (firstParagraph T o t)) (classes T o (firstParagraph T o t))))
    (h10 : NeutralsBefore (outer o) (w3 (w2 (outer o) (w1 (outer o) (classes T o (firstParagraph T o t)))))
      (resolvedPairs (outer o) (perChar d 0 (firstParagraph T o t)) (classes T o (firstParagraph T o t)))) :
    ∃ N p ys, resolveParagraph T o sched (utf8 t) N = .returns (levelsOf o p.stack, p) ∧ p.stack = initialOuterScrap o true :: ys ∧
      Tiles 0 (utf8 (firstParagraph T o t)).length ys ∧ (∀ s ∈ ys, (s.clz = cL ∨ s.clz = cR) ∧ s.l < s.r ∧ s.children = []) ∧
      Linked (fun a b : Scrap => a.clz ≠ b.clz) ys ∧
      byteClasses ys = spread (firstParagraph T o t) (resolvedPairs (outer o) (perChar d 0 (firstParagraph T o t)) (classes T o (firstParagraph T o t))) := by
  have he : outer o = cL ∨ outer o = cR := by unfold outer; split <;> simp
  have hiso : Spec.NoIsolates (classes T o (firstParagraph T o t)) := by
    intro c hc hm
    have := h1 c hc
    simp only [List.mem_cons, List.not_mem_nil, or_false] at this
    rcases this with rfl | rfl | rfl | rfl | rfl | rfl | rfl | rfl | rfl | rfl | rfl | rfl <;> exact absurd hm (by decide)
  have hAN : cAN ∉ classes T o (firstParagraph T o t) := fun hm => absurd (h1 _ hm) (by decide)
  have hAL : cAL ∉ classes T o (firstParagraph T o t) := fun hm => absurd (h1 _ hm) (by decide)
  have hal : NoALBeforeEN (classes T o (firstParagraph T o t)) := fun pre post h => (h2 pre post h).2
  have hNSM : ¬ IsBr (outer o) := by unfold IsBr; rcases he with h | h <;> rw [h] <;> decide
  have hg := good_text hT t True hiso (numbersLTR_left h2) (fun _ => ⟨hAN, h3⟩)
  obtain ⟨hb, htl⟩ := scraps_bytes hT t hiso h3 hal (outer o) he
  have hctx := scraps_ctx hT t hiso h3 hAL (by omega)
  have hpar := paragraph_text T o t
  have hlk := emit_neighbours (T := T) (o := o) (e := outer o) (paragraph T o (runesOf (utf8 t))) (initialOuterScrap o false) none [] rfl
    (by show cNULL ≠ cAL; decide) rfl (by
      intro x hx
      rw [hpar, List.mem_map] at hx
      obtain ⟨c, hc, rfl⟩ := hx
      dsimp only
      rw [runeClass_char]
      have := h1 _ (List.mem_map_of_mem (f := charClass T o) hc)
      intro hm
      simp only [List.mem_cons, List.not_mem_nil, or_false] at this
      rcases this with k | k | k | k | k | k | k | k | k | k | k | k <;> rw [k] at hm <;> exact absurd hm (by decide))
  change (∀ s ∈ scrapsOf T o (utf8 t), s.e = outer o) ∧ Linked _ (scrapsOf T o (utf8 t)) ∧ _ at hlk
  obtain ⟨f2w, f2n, f2m⟩ := pair_scanned he h1 h2
  have hopen := decided_strongs hAL hAN h2 hd h7
  have hchar := fun u c w ht hc => decided_char (u := u) (c := c) (w := w) hAL hAN h2 hd h7 ht hc
  have hdec := fun before a inside b after ht hm => decided_pair (before := before) (a := a) (inside := inside) (b := b) (after := after) hAL hAN h2 hd h7 ht hm
  obtain ⟨fin, f1, f2, f3⟩ := scanner_feeds ho (known_notNull hT) sched (utf8 t)
  have hh := f3 (noIsolates_text t hiso)
  -- the handler
  have hperm := pairUp_bd16 hT hB (o := o) (firstParagraph T o t) (initialOuterScrap o false) none [] {} (by intro x hx; cases hx)
  have hop := pairUp_openings (T := T) (o := o) (paragraph T o (runesOf (utf8 t))) (initialOuterScrap o false) none [] {} ⟨by simp, by simp⟩
  have hwi := pairUp_within (T := T) (o := o) (M1 := fun s => s ∈ scrapsOf T o (utf8 t)) (M2 := fun s => s ∈ scrapsOf T o (utf8 t) ∧ s.clz = cBRACKC)
    (paragraph T o (runesOf (utf8 t))) (initialOuterScrap o false) none [] {} ⟨by simp, by simp⟩ (fun s hs => ⟨fun _ => hs, fun h => ⟨hs, h⟩⟩)
  rw [← paragraph_text] at hperm
  have e0 : (initialOuterScrap o false).r = 0 := by unfold initialOuterScrap; split <;> rfl
  rw [e0] at hperm
  change (Handler.found _).Perm ([] ++ bd16 false [] _) at hperm
  rw [List.nil_append] at hperm
  have hstd := bd16_std _ [] h5 (by simp) (brackets_noAngle _ 0 h6)
  rw [← hstd] at hperm
  generalize pairUp T o _ (initialOuterScrap o false) none [] {} = h at hh hperm hop hwi
  have hirs := feeds_irs (show (newScanner o (utf8 t)).IrsOk by intro x hx; have : x = (0, 0) := by simpa [newScanner] using hx
                                                                subst this; exact Nat.one_pos) f1
  obtain ⟨d1, d2, -⟩ := bd16_nodup true (bracketsOf T o 0 (firstParagraph T o t)) [] 0 (increasing_brackets _ 0) (by simp) (by simp)
  have d1' := (hperm.map (·.1)).nodup_iff.mpr d1
  have d2' := (hperm.map (·.2)).nodup_iff.mpr d2
  have hsplit : ∀ p q, (p, q) ∈ bd16 true [] (bracketsOf T o 0 (firstParagraph T o t)) → _ := fun p q hm => pair_split hm
  have hlen : (classes T o (firstParagraph T o t)).length = (firstParagraph T o t).length := by unfold classes; rw [List.length_map]
  have hcl : ∀ (u : List Char) (c : Char) (w : List Char), firstParagraph T o t = u ++ c :: w → (classes T o (firstParagraph T o t))[u.length]? = some (charClass T o c) := by
    intro u c w e
    unfold classes
    rw [e, List.getElem?_map]
    simp
  have hscrapmem : ∀ s ∈ scrapsOf T o (utf8 t), s ∈ scrapsOf T o (utf8 t) := fun _ h => h
  have hn := noIsolates_text (T := T) (o := o) t hiso
  have hends := ended_atRest (T := T) (o := o) f2
  have hpos : ∀ s ∈ scrapsOf T o (utf8 t), s.l < s.r := by
    intro s hs
    have := hg.1 s (by simpa using hs)
    rcases (this.1.2.2.2 trivial).2 with h | h
    · rw [this.2] at h; cases h.1
    · exact h
  clear h5 h6 hstd hpar hscrapmem
  have hkids := scraps_noKids T o (utf8 t)
  generalize hfp : firstParagraph T o t = fp at *
  generalize hss : scrapsOf T o (utf8 t) = ss at *
  generalize hcs : classes T o fp = cs at *
  have hks : Dirs (perChar d 0 fp) := dirs_perChar (fun x => by rcases hopen x with k | k | k <;> rw [k] <;> decide) fp 0
  have hkl : (perChar d 0 fp).length = cs.length := by rw [perChar_length, hlen]
  have hXl : (w3 (w2 (outer o) (w1 (outer o) cs))).length = fp.length := by
    rw [f2w]; unfold w3; rw [List.length_map, w1_length, hlen]
  have hres := pairs_settled he h1 h2 hks hkl
  have hrl : (resolvedPairs (outer o) (perChar d 0 fp) cs).length = fp.length := by
    rw [hres, n12_length, List.length_map, w5_length, w4_length, set_length (by rw [perChar_length, hXl]), hXl]
  -- brackets among the scraps
  have hbr : ∀ s ∈ ss, IsBr s.clz → ∃ u c w, fp = u ++ c :: w ∧ s.l = (utf8 u).length ∧ s.r = (utf8 u).length + (utf8 [c]).length := by
    intro s hs hsb
    obtain ⟨u, c, w, u1, u2, u3, -⟩ := hctx s hs hsb
    exact ⟨u, c, w, u1, u2, u3⟩
  have hbc : ∀ s ∈ ss, IsBr s.clz → ∀ u c w, fp = u ++ c :: w → s.l = (utf8 u).length → charClass T o c = s.clz := by
    intro s hs hsb u c w u1 u2
    have hpc := utf8_pos c
    obtain ⟨u', c', w', v1, v2, v3⟩ := hbr s hs hsb
    obtain ⟨s', s0, s1, s2, -, s4⟩ := scrap_at (by rw [List.length_map, hXl]) hb htl hpos u1 (k := 0) hpc
    have : s' = s := tiles_overlap htl hpos s0 hs (i := (utf8 u).length) (by omega) (by omega) (by omega) (by have := hpos s hs; omega)
    subst this
    rw [List.getElem?_map] at s4
    cases hX : (w3 (w2 (outer o) (w1 (outer o) cs)))[u.length]? with
    | none => rw [hX] at s4; cases s4
    | some x =>
      rw [hX, Option.map_some, Option.some.injEq] at s4
      have hxs : x = s'.clz := by
        rw [← s4]
        unfold oneNeutral
        split
        · rename_i hh
          rw [← s4] at hsb
          unfold oneNeutral at hsb
          rw [if_pos hh] at hsb
          exact absurd hsb (by unfold IsBr; decide)
        · rfl
      rw [f2w] at hX
      unfold w3 at hX
      rw [List.getElem?_map] at hX
      cases hW : (w1 (outer o) cs)[u.length]? with
      | none => rw [hW] at hX; cases hX
      | some y =>
        rw [hW, Option.map_some, Option.some.injEq] at hX
        have hy : y = s'.clz := by
          by_cases hya : y = cAL
          · rw [if_pos hya] at hX
            rw [← hxs, ← hX] at hsb
            exact absurd hsb (by unfold IsBr; decide)
          · rw [if_neg hya] at hX
            rw [hX, hxs]
        have := w1_bracket cs (outer o) (fun hh => absurd hh hNSM) h8 _ _ hW (hy ▸ hsb)
        rw [hcl u c w u1, Option.some.injEq] at this
        rw [this, hy]
  have hds : ∀ s ∈ ss, IsBr s.clz → d s.l = some cL ∨ d s.l = some cR := by
    intro s hs hsb
    obtain ⟨u, c, w, u1, u2, -⟩ := hbr s hs hsb
    rw [u2]
    exact hchar u c w u1 (by rw [hbc s hs hsb u c w u1 u2]; exact hsb)
  have hstr : Strongs d := by
    intro x
    rcases hopen x with k | k | k <;> rw [k] <;> simp
  have hpb := painted_bytes hXl hb htl hpos hbr hds
  have hXm : ∀ c ∈ setBrackets (perChar d 0 fp) (w3 (w2 (outer o) (w1 (outer o) cs))), c ∈ [cL, cR, cEN, cES, cET, cCS, cS, cWS, cON] := by
    intro c hc
    rcases set_mem hks hc with h | ⟨h, h1, h2⟩
    · simp only [List.mem_cons, List.not_mem_nil, or_false] at h ⊢
      rcases h with rfl | rfl | rfl <;> simp
    · have := f2m c h
      simp only [List.mem_cons, List.not_mem_nil, or_false] at this ⊢
      rcases this with k | k | k | k | k | k | k | k | k | k | k <;> first | contradiction | (rw [k]; decide)
  have hsl : (setBrackets (perChar d 0 fp) (w3 (w2 (outer o) (w1 (outer o) cs)))).length = fp.length := by
    rw [set_length (by rw [perChar_length, hXl]), hXl]
  have hval := settled_bytes (outer o) hXm fp hsl
  rw [← hres, ← hpb] at hval
  have hap := aside_settled (e := outer o) hXm fp hsl hrl (by
    rw [set_w5 hks (by rw [w4_length, perChar_length, hXl]) Iff.rfl, set_w4 hks (by rw [perChar_length, hXl]) (fun _ _ => Iff.rfl)] at h9
    exact h9)
  rw [← hpb] at hap
  have hbef := before_start hXl hrl hb htl hpos hbr (fun hm => absurd (f2m _ hm) (by decide)) h10
  generalize hD : spread fp (resolvedPairs (outer o) (perChar d 0 fp) cs) = D at *
  have hposP : ∀ s ∈ ss.map (painted d), s.l < s.r := by
    intro s hs
    rw [List.mem_map] at hs
    obtain ⟨x, hx, rfl⟩ := hs
    rw [(painted_l d x).1, (painted_l d x).2.1]
    exact hpos x hx
  have hex : Ex1 (outer o) D [] (ss.map (painted d)) := by
    refine ⟨?_, hval.symm, hap, ?_⟩
    · intro s hs
      rw [List.nil_append] at hs
      have hs' := hs
      rw [List.mem_map] at hs'
      obtain ⟨x, hx, hxs⟩ := hs'
      refine ⟨?_, by rw [← hxs, (painted_l d x).2.2.1]; exact hlk.1 x hx, hposP s hs⟩
      have := mem_bytes hs (hposP s hs)
      rw [hpb] at this
      unfold spread at this
      rw [List.mem_flatMap] at this
      obtain ⟨y, hy, hm⟩ := this
      rw [List.eq_of_mem_replicate hm]
      have hx2 := (List.of_mem_zip hy).2
      rw [List.mem_map] at hx2
      obtain ⟨z, hz, hz2⟩ := hx2
      rw [← hz2]
      have := hXm z hz
      simp only [List.mem_cons, List.not_mem_nil, or_false] at this
      rcases this with rfl | rfl | rfl | rfl | rfl | rfl | rfl | rfl | rfl <;> decide
    · rw [List.nil_append]
      refine linked_map (painted d) ?_ ss hlk.2.1
      intro x y hxy e hm
      rcases painted_clz hstr x with ⟨a1, a2⟩ | ⟨a1, a2⟩
      · rcases painted_clz hstr y with ⟨b1, b2⟩ | ⟨b1, b2⟩
        · rw [a2, b2] at e
          rcases hxy with k | k
          · exact k e
          · exact a1 k
        · rw [e] at hm
          rcases b2 with k | k <;> rw [k] at hm <;> exact absurd hm (by decide)
      · rcases a2 with k | k <;> rw [k] at hm <;> exact absurd hm (by decide)
  have hic : (initialOuterScrap o true).clz = cLRI ∨ (initialOuterScrap o true).clz = cRLI := by
    unfold initialOuterScrap
    dsimp only
    cases o.outerR2L <;> simp
  have hicb : ¬ IsBr (initialOuterScrap o true).clz := by unfold IsBr; rcases hic with h | h <;> rw [h] <;> decide
  -- the pairs
  have hfound : ∀ pr ∈ h.pairings, (pr.opening.l, pr.closing.l) ∈ bd16 true [] (bracketsOf T o 0 fp) := by
    intro pr hp
    exact hperm.mem_iff.mp (List.mem_map_of_mem (f := fun p : Pairing => (p.opening.l, p.closing.l)) hp)
  have hPr : ∀ os cs k, (∃ pr ∈ h.pairings, pr.opening = os ∧ pr.closing = cs ∧ k = (d os.l).getD cL) → PairOk d os cs k := by
    rintro os cs k ⟨pr, p1, rfl, rfl, rfl⟩
    have hos := (hwi.2 pr p1).1
    have hoc := hop.2 pr p1
    obtain ⟨hcs', hcc⟩ := (hwi.2 pr p1).2
    obtain ⟨before, a, inside, b, after, k1, k2, k3, k4, k5⟩ := hsplit _ _ (hfound pr p1)
    obtain ⟨u, x, w, u1, u2, u3, u4⟩ := hctx _ hos (Or.inl hoc)
    obtain ⟨v, y, w', v1, v2, v3, v4⟩ := hctx _ hcs' (Or.inr hcc)
    obtain ⟨eu, ex, -⟩ := prefix_unique (u1.symm.trans k1) (by rw [← u2, k2])
    have ht2 : fp = (before ++ a :: inside) ++ b :: after := by rw [k1]; simp
    obtain ⟨ev, ey, -⟩ := prefix_unique (v1.symm.trans ht2) (by rw [← v2, k3])
    rw [eu] at u2 u3 u4; rw [ex] at u3
    rw [ev] at v2 v3 v4; rw [ey] at v3
    have hm := hfound pr p1
    rw [k2, k3] at hm
    obtain ⟨hne, q1, q2⟩ := hdec _ _ _ _ _ k1 hm
    have hn0 := opening_n0 u4 v4 (Or.inl k4) u2 hne
    have hpa := utf8_pos a
    have hpb := utf8_pos b
    have hdk : (d pr.opening.l).getD cL = codeClass T o before inside := by rw [k2, q1]; rfl
    rw [hdk]
    exact ⟨hoc, hcc, codeClass_dir T o before inside, hn0, by omega, by rw [u3, v2, utf8_append, utf8_len a inside]; omega, by omega, hdk, by rw [k3, q2]; rfl⟩
  have hall : ∀ s ∈ ss, IsBr s.clz → ∃ pr ∈ h.pairings, s = pr.opening ∨ s = pr.closing := by
    intro s hs hsb
    obtain ⟨u, c, w, u1, u2, u3⟩ := hbr s hs hsb
    obtain ⟨before, a, inside, b, after, g1, g2, g3, -, -⟩ := h7 u c w u1 (by rw [hbc s hs hsb u c w u1 u2]; exact hsb)
    have hf := hperm.mem_iff.mpr g3
    unfold Handler.found at hf
    rw [List.mem_map] at hf
    obtain ⟨pr, p1, p2⟩ := hf
    injection p2 with p2 p3
    refine ⟨pr, p1, ?_⟩
    have hos := (hwi.2 pr p1).1
    have hcs' := (hwi.2 pr p1).2.1
    have l1 := hpos s hs
    have l2 := hpos _ hos
    have l3 := hpos _ hcs'
    rcases g2 with rfl | rfl
    · left; exact tiles_overlap htl hpos hs hos (i := s.l) (by omega) (by omega) (by omega) (by omega)
    · right; exact tiles_overlap htl hpos hs hcs' (i := s.l) (by omega) (by omega) (by omega) (by omega)
  have hJ := allAt_inv T o sched (utf8 fp).length he D hstr (i := initialOuterScrap o true) hic hPr
  have hI := ((((good1_inv True 0 (utf8 fp).length).jumps).painted hstr (ex1_inv (utf8 fp).length (outer o) D)).before (Z := ss) (e := outer o) (D := D)
    (fun hx s hs => ((hx.1.1 s hs).1.2.2.2 trivial).1))
  have hA : AtRest T o (fin, 0) := ⟨hends, by
    intro x hx
    rw [hh, List.mem_singleton] at hx
    subst hx
    intro p hp
    exact ⟨Or.inr (hop.2 p hp), trivial⟩⟩
  obtain ⟨N, p, e1, ⟨e2, e3⟩, e4⟩ := wholeBBack (o := o) f1 (hI.keeps noKids_keeps1) hJ.weak.kids.unlike
    ⟨⟨⟨hg, ⟨good1_painted hstr hg, hex⟩, fun s t _ _ => Mergeable.of trivial, fun _ => Mergeable.of trivial⟩, by simpa using hbef, fun z _ => by simp⟩, by simpa [AllOf] using hkids⟩
    (by
      rintro ys ⟨⟨⟨hy0, ⟨hy1, c, v, a, bl⟩, hyj⟩, hyb, hyk⟩, hyc⟩
      have hbase : (Good2 True (utf8 fp).length [] (initialOuterScrap o true :: ys) ∧ AllOf Flat [] (initialOuterScrap o true :: ys)) ∧ AtRest T o (fin, 0) ∧ AtRest T o (fin, 0) := by
        refine ⟨⟨good2_start o hy0, ?_⟩, hA, hA⟩
        intro s hs
        simp only [List.nil_append, List.mem_cons] at hs
        rcases hs with rfl | hs
        · have hi := initial_fine True o
          exact ⟨fun _ => by rw [hi.2.2.1, hi.2.2.2], hi.1.2.1⟩
        · have hf := hy0.1 s (by simpa using hs)
          exact ⟨fun h => absurd h (by rw [hf.2]; simp), hf.1.2.1⟩
      have hin : ∀ z ∈ ss, IsBr z.clz → z ∈ initialOuterScrap o true :: ys := by
        intro z hz hzb
        have := (hyk z hzb).mpr hz
        rw [List.append_nil] at this
        exact List.mem_cons_of_mem _ this
      refine ⟨⟨⟨hbase, ?_, ?_, ?_, Or.inl ⟨rfl, ys.map (painted d), by rw [List.map_cons, painted_other hicb], ?_⟩⟩, ?_⟩, (trivial : Linked Differ [_])⟩
      rotate_left 4
      · intro s hs
        rw [List.nil_append, List.mem_cons] at hs
        rcases hs with rfl | hs
        · rfl
        · exact hyc s (by simpa using hs)
      · rintro os cs k ⟨pr, p1, rfl, rfl, rfl⟩
        exact ⟨hbase, Or.inl ⟨hin _ (hwi.2 pr p1).1 (Or.inl (hop.2 pr p1)), hin _ (hwi.2 pr p1).2.1 (Or.inr (hwi.2 pr p1).2.2), hends, hirs, h, hh, d1', d2', pr, p1, rfl, rfl,
          hop.2 pr p1⟩⟩
      · rw [List.nil_append]
        rw [List.append_nil] at hyb
        cases ys with
        | nil => trivial
        | cons y ys =>
          refine ⟨fun hm => ?_, hyb⟩
          rcases hic with k | k <;> rw [k] at hm <;> exact absurd hm (by decide)
      · intro s hs hsb
        rw [List.nil_append, List.mem_cons] at hs
        rcases hs with rfl | hs
        · exact absurd hsb hicb
        · obtain ⟨pr, p1, p2⟩ := hall s ((hyk s hsb).mp (by simpa using hs)) hsb
          exact ⟨pr.opening, pr.closing, _, ⟨pr, p1, rfl, rfl, rfl⟩, p2⟩
      · rw [List.map_nil, List.append_nil] at c v
        have j : Linked (NotNI (outer o) D) (ys.map (painted d)) := (hyj.2 (by simp)).2.resolve_right leads_nil
        refine ⟨?_, ?_, by simp, ?_, j, ?_⟩
        · intro s hs
          rw [List.nil_append] at hs
          refine ⟨?_, (c s hs).2⟩
          have hw := hy1.2.2.2 s hs
          simp only [weakClass, Bool.or_eq_false_iff, beq_eq_false_iff_ne] at hw
          have := (c s hs).1
          simp only [List.mem_cons, List.not_mem_nil, or_false] at this
          rcases this with k | k | k | k | k | k | k
          · exact Or.inl k
          · exact Or.inr (Or.inl k)
          · exact Or.inr (Or.inr k)
          · exact absurd k hw.1.1.1
          · exact absurd k hw.1.1.2
          · exact absurd k hw.1.2
          · exact absurd k hw.2
        · have := hy1.2.2.1 trivial
          simpa using this
        · have := w5_pre (pre := ys.map (painted d)) (suf := []) hy1.2.2.2
          rw [List.append_nil, show w5 cON (byteClasses []) = [] from rfl, List.append_nil] at this
          rw [this] at v
          exact v
        · intro s t _ _ x hx
          cases hx) (fun hj => by have := hj.1.1.base.1.1.2.2; simpa using this)
  have hnb : ∀ s ∈ p.stack, ¬ IsBr s.clz := by
    intro s hs hsb
    obtain ⟨os, cs, k, g1, g2⟩ := e2.known s (by simpa using hs) hsb
    have hk := hPr _ _ _ g1
    have hkb : ¬ IsBr k := notBr_of (hk.dir.imp id Or.inl)
    rcases g2 with rfl | rfl
    · have := joint_open hk.op hk.pos1 (e2.pairs _ _ _ g1) (z := s) (by simpa using hs) rfl rfl (Or.inr hs)
      exact hkb (this ▸ hsb)
    · have := joint_close hk.cl hk.pos2 (e2.pairs _ _ _ g1) (z := s) (by simpa using hs) rfl rfl (Or.inr hs)
      exact hkb (this ▸ hsb)
  have hform := e2.form
  rw [painted_map hnb] at hform
  rcases hform with ⟨-, ys, hy, -⟩ | ⟨ys, hy, hx⟩
  · cases hy
  · obtain ⟨c, tl, st, v, -, -⟩ := hx
    rw [List.map_nil, List.append_nil] at c tl v
    rw [List.drop_zero] at v
    have hst : ∀ s ∈ ys, (s.clz = cL ∨ s.clz = cR) ∧ s.l < s.r ∧ s.children = [] := by
      intro s hs
      refine ⟨?_, (c s hs).2.2, e3 s (by rw [hy]; simp [hs])⟩
      rcases (c s hs).1 with k | k | k
      · exact Or.inl k
      · exact Or.inr k
      · exact absurd k (st s hs)
    have hdf : Linked (fun a b : Scrap => a.clz ≠ b.clz) ys := by
      unfold Unlike at e4
      rw [List.take_nil, List.append_nil, hy, ← List.singleton_append, linked_append] at e4
      have : ∀ zs : List Scrap, (∀ z ∈ zs, z ∈ ys) → Linked Differ zs → Linked (fun a b : Scrap => a.clz ≠ b.clz) zs := by
        intro zs
        induction zs with
        | nil => intros; trivial
        | cons a zs ih =>
          intro hz hl
          cases zs with
          | nil => trivial
          | cons b zs => exact ⟨fun he => hl.1 ⟨he, (hst a (hz a (by simp))).1⟩, ih (fun z hz' => hz z (List.mem_cons_of_mem _ hz')) hl.2⟩
      exact this ys (fun _ h => h) e4.2.1
    refine ⟨N, p, ys, e1, hy, tl, hst, hdf, ?_⟩
    have hm : ∀ c ∈ byteClasses ys, c = cL ∨ c = cR := by
      intro c hc
      obtain ⟨x, hx, rfl⟩ := bytes_mem hc
      exact (hst x hx).1
    have hid : (byteClasses ys).map settle = byteClasses ys := by
      conv => rhs; rw [← List.map_id (byteClasses ys)]
      exact List.map_congr_left fun c hc => settle_strong (hm c hc)
    rw [hid] at v
    have := n12_strong (outer o) (byteClasses ys) [] (outer o) hm
    rw [List.append_nil, show n12 (outer o) _ [] = [] from rfl, List.append_nil] at this
    rw [← v, this]

end Uax.Bidi
