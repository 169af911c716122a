import Verif.BidiIsoResolve
import Verif.SpecNested
import Verif.BidiNestBody

/-
The scraps of a text with nested isolates.
-/
namespace Uax.Bidi
open Spec

theorem outline_even {l o : List Scrap} (h : Outline l o) : Even l := by
  induction h with
  | nil => intro d t h; exact h
  | plain hs h ih =>
    intro d t hf
    exact ih d t (hf.tail hs)
  | iso hk ha hz hb he h1 hi h2 h ih =>
    rename_i b a z body t ys zs o
    intro d w hf
    have e : a :: (body ++ z :: t) ++ w = a :: (body ++ z :: (t ++ w)) := by simp
    rw [e] at hf
    have hao : opens a = true := by
      unfold opens
      rcases ha with ha | ha | ha <;> rw [ha] <;> rfl
    exact ih d w ((he _ _ (hf.open hao)).close hz)

theorem outline_known {l o : List Scrap} (h : Outline l o) (hk : ∀ s ∈ o, s.clz < 28) : ∀ s ∈ l, s.clz < 28 := by
  induction h with
  | nil => intro s hs; cases hs
  | plain hs h ih =>
    intro x hx
    rw [List.mem_cons] at hx
    rcases hx with rfl | hx
    · exact hk x (by simp)
    · exact ih (fun y hy => hk y (by simp [hy])) x hx
  | iso hk' ha' hz' hb' he' h1' hi' h2' h' ih =>
    rename_i b a z body t ys zs o
    intro x hx
    have : x ∈ (a :: (body ++ [z])) ++ t := by simpa using hx
    rw [List.mem_append] at this
    rcases this with hx | hx
    · exact hk' x hx
    · exact ih (fun y hy => hk y (by simp [hy])) x hx

/-- After the first character of an isolate from left to right, the strong types are L. -/
theorem calm_open {tile : Prop} {A : Scrap} {a : Option Nat} {c : Class} {cs : List Class} {n : Nat} (hA : A.clz = cLRI ∨ A.clz = cRLI) (hc : PlainClass tile c)
    (hal : c = cEN → A.ctx.isAL = false) (hq : QuietText (c :: cs)) (hL : cEN ∈ c :: cs → A.clz = cLRI) :
    Calm (inheritStrongTypes (nextScrap A c n) A a) cs := by
  intro he
  have hAL := hL (List.mem_cons_of_mem _ he)
  obtain ⟨q1, q2⟩ := quiet_head hq he
  obtain ⟨-, -, -, -, f5, -⟩ := first_class (hA.imp id Or.inl) hc hal
  have hni := next_plain (cur := A) n (Or.inr (Or.inr (hA.imp id Or.inl))) hc.2.1
  have hd : (nextScrap A c n).clz ≠ cLRI ∧ (nextScrap A c n).clz ≠ cRLI := by
    unfold isIsolate at hni
    simp only [Bool.or_eq_false_iff, beq_eq_false_iff_ne] at hni
    exact hni.1.1
  have icl := inherit_clz (nextScrap A c n) A a
  change _ = rulesW1to3 c A at icl
  have hs : (inheritStrongTypes (nextScrap A c n) A a).ctx.strong = cL := by
    unfold inheritStrongTypes
    rw [if_neg hd.1, if_neg hd.2]
    dsimp only
    rw [hAL, if_pos (Or.inr rfl)]
    exact (setStrong_eq _ _ _ (Or.inl rfl)).1
  refine ⟨hs, ?_⟩
  unfold nextStrong
  rw [icl, hs]
  split
  · rfl
  · split
    · rename_i h
      rcases f5 h with h | h | h
      · exact absurd h q1
      · exact absurd h q2
      · rw [hAL] at h; exact absurd h (by decide)
    · rfl

/-! ### The conditions -/

/-- The tokens of isolates. -/
def toks (i : Isolates) : List (Nat × Nat) := i.chars.map token

/-- The conditions on isolates, as they are used for the scanner. -/
def GoodIn (T : Tables) (o : Options) (tile : Prop) : Isolates → Bool → Prop
  | .none, _ => True
  | .more op lead inner cl after rest, nested =>
    (charClass T o op = cLRI ∨ charClass T o op = cRLI) ∧ charClass T o cl = cPDI ∧ lead ≠ [] ∧ (after = [] → nested = false ∧ rest = .none) ∧
    (∀ c ∈ lead ++ inner.outer, PlainClass tile (charClass T o c) ∧ charClass T o c ≠ cBRACKO ∧ charClass T o c ≠ cBRACKC) ∧
    (∀ c ∈ after, PlainClass tile (charClass T o c)) ∧
    NumbersLTR (isoDir (charClass T o op)) (classes T o (lead ++ inner.outer)) ∧
    (inner ≠ .none → QuietText (classes T o (lead ++ inner.outer)) ∧ (cEN ∈ classes T o (lead ++ inner.outer) → charClass T o op = cLRI)) ∧
    GoodIn T o tile inner true ∧ GoodIn T o tile rest nested

/-- What may follow the scraps of a part of the text within `d` isolates. -/
def Ends (d : Nat) (tail : List Scrap) : Prop :=
  Far d tail ∧ (d = 0 → tail = []) ∧ (1 ≤ d → ∃ z w, tail = z :: w ∧ z.clz = cPDI ∧ 2 * (d - 1) ≤ w.length)

/-- The classes of the bytes of isolates and of the text after them, where an isolate counts as
one neutral. -/
def outBytes (T : Tables) (o : Options) : Isolates → List Class
  | .none => []
  | .more op lead inner cl after rest => List.replicate (utf8 (op :: (lead ++ inner.chars) ++ [cl])).length cNI ++
      (spread after (scanned cNI (classes T o after)) ++ outBytes T o rest)

/-- Neutrals stand directly before isolates only where the direction is the one of the paragraph;
`seg` are the classes before the first one, which is at `pos`. -/
def Clear (T : Tables) (o : Options) (e : Class) (D : List Class) : Nat → List Class → Isolates → Prop
  | _, _, .none => True
  | pos, seg, .more op lead inner cl after rest => (seg.getLast? = some cNI → D[pos]? = some e) ∧
      Clear T o e D (pos + (utf8 (op :: (lead ++ inner.chars) ++ cl :: after)).length) (scanned cNI (classes T o after)) rest

/-- The classes of the bytes of the own text of an isolate. -/
def ownBytes (T : Tables) (o : Options) (lead : List Char) (inner : Isolates) : List Class := spread lead (scanned cNULL (classes T o lead)) ++ outBytes T o inner

/-- What is between the initiator and the PDI of an isolate, in its run: if there are only letters, numbers and
neutrals, then the classes are those of the rules N1 and N2. -/
def RawFor (T : Tables) (o : Options) : Isolates → Nat → List (List Scrap) → Prop
  | .none, _, _ => True
  | .more op lead inner cl after rest, pos, runs => ∃ first mid last runs', runs = (first :: (mid ++ [last])) :: runs' ∧ first.r = pos + (utf8 [op]).length ∧
    ((classes T o lead).head? ≠ some cNSM → (∀ x ∈ ownBytes T o lead inner, x ∈ [cL, cR, cNI, cEN]) → (inner ≠ .none → charClass T o op = cLRI) →
      Clear T o (isoDir (charClass T o op)) (List.replicate (pos + (utf8 [op]).length) (isoDir (charClass T o op)) ++
        n12 (isoDir (charClass T o op)) (isoDir (charClass T o op)) ((ownBytes T o lead inner).map settle)) (pos + (utf8 (op :: lead)).length)
        (scanned cNULL (classes T o lead)) inner →
      (∀ s ∈ mid, (s.clz = cL ∨ s.clz = cR) ∧ s.l < s.r) ∧
        byteClasses mid = n12 (isoDir (charClass T o op)) (isoDir (charClass T o op)) ((ownBytes T o lead inner).map settle)) ∧
    RawFor T o inner (pos + (utf8 (op :: lead)).length) (kidsOf (first :: (mid ++ [last]))) ∧
    RawFor T o rest (pos + (utf8 (op :: (lead ++ inner.chars) ++ cl :: after)).length) runs'

/-- What the scraps of a text with nested isolates are like. -/
structure Nests (T : Tables) (o : Options) (tile : Prop) (start len : Nat) (first : Prop) (nested : Bool) (i : Isolates) (pos : Nat) (bare filled : Prop) (ss os : List Scrap) : Prop where
  outline : Outline ss os
  far : ∀ d tail, (1 ≤ d → nested = true) → Ends d tail → Far d (ss ++ tail)
  fine : ∀ s ∈ os, Fine tile s ∧ isIsolate s = false
  num : NumOk os
  tiles : tile → first → Tiles start len os
  housed : tile → ∀ s ∈ os, Housed s
  runs : tile → i.RunsFor T o pos (kidsOf os)
  raw : tile → KnownClasses T → RawFor T o i pos (kidsOf os)
  bare : bare → ∀ s ∈ os, NoBracket s
  head : filled → ∃ x w, ss = x :: w ∧ isIsolate x = false

/-- The scanner after a text which is followed by a PDI. -/
structure Onward (T : Tables) (o : Options) (tile : Prop) (xs : List (Nat × Nat)) (cur : Scrap) (a : Option Nat) (st : List DirContext) (ss : List Scrap)
    (c' : Scrap) (a' : Option Nat) : Prop where
  scraps : ∀ r n more, runeClass T o r = cPDI → emit T o (xs ++ (r, n) :: more) cur a st = ss ++ emit T o more (inheritStrongTypes (nextScrap c' cPDI n) c' a') a' st
  ready : Ready tile c' a' []
  pos : c'.r = cur.r + widthOf xs
  keep : a' = none → a = none
  al : a' ≠ none → a ≠ none ∨ cAL ∈ classesIn T o xs

theorem after_some {T : Tables} {o : Options} : ∀ (l : List (Nat × Nat)) (c : Scrap) (b : Option Nat), b ≠ none → (after T o l c b).2 ≠ none := by
  intro l
  induction l with
  | nil => intro c b hb; exact hb
  | cons x l ihl =>
    obtain ⟨r1, n1⟩ := x
    intro c b hb
    rw [after]
    split
    · refine ihl _ _ ?_
      split
      · simp
      · exact hb
    · exact ihl _ _ hb

/-- Text without isolates before a PDI. -/
theorem onward_plain {T : Tables} {o : Options} {tile : Prop} (xs : List (Nat × Nat)) (cur : Scrap) (a : Option Nat) (st : List DirContext)
    (hr : Ready tile cur a (classesIn T o xs)) (hxs : ∀ x ∈ xs, PlainClass tile (runeClass T o x.1) ∧ 0 < x.2) :
    Onward T o tile xs cur a st (Bidi.emit T o xs cur a st) (after T o xs cur a).1 (after T o xs cur a).2 := by
  have hxp : ∀ x ∈ xs, runeClass T o x.1 ∉ [cLRI, cRLI, cFSI, cPDI] := fun x hx => (hxs x hx).1.2.1
  have hR := after_ready (T := T) (o := o) [] xs cur a (by rw [List.append_nil]; exact hr) hxs
  have hni := hR.notIso
  refine ⟨?_, hR, after_r xs cur a hr.notIso hxp, ?_, after_AL xs cur a⟩
  · intro r n more hcl
    have hbr : breaks (after T o xs cur a).1 (runeClass T o r) = true := by
      rw [hcl]
      unfold breaks
      have h1 : rulesW1to3 cPDI (after T o xs cur a).1 = cPDI := rfl
      rw [h1]
      have := notPDI hni
      simp [this]
    have hsplit := emit_split (T := T) (o := o) r n more xs cur a st hr.notIso hxp hbr
    rw [hcl] at hsplit
    have hsw : switchContext (after T o xs cur a).1 st (nextScrap (after T o xs cur a).1 cPDI n) = ((after T o xs cur a).1, st) := by
      unfold switchContext
      have h1 : (nextScrap (after T o xs cur a).1 cPDI n).clz = cPDI := rfl
      rw [if_neg (by rw [h1]; simp), if_neg (notPDI hni)]
    rw [hsw, if_neg (by decide)] at hsplit
    exact hsplit
  · intro h
    cases ha : a with
    | none => rfl
    | some q => exact absurd h (after_some xs cur a (by rw [ha]; simp))

/-! ### The steps of the scanner -/

/-- An isolate initiator after text. -/
theorem enter_step {T : Tables} {o : Options} {tile : Prop} {cs : List Class} (xs : List (Nat × Nat)) (cur : Scrap) (a : Option Nat) (st : List DirContext) (r n : Nat)
    (hr : Ready tile cur a (classesIn T o xs ++ cs)) (hxs : ∀ x ∈ xs, PlainClass tile (runeClass T o x.1) ∧ 0 < x.2)
    (hopc : runeClass T o r = cLRI ∨ runeClass T o r = cRLI) :
    ∃ A : Scrap, (∀ M, emit T o (xs ++ (r, n) :: M) cur a st = emit T o xs cur a st ++ emit T o M A (after T o xs cur a).2 ((after T o xs cur a).1.ctx :: st)) ∧
      A.clz = runeClass T o r ∧ A.e = isoDir (runeClass T o r) ∧ A.l = cur.r + widthOf xs ∧ A.r = cur.r + widthOf xs + n ∧ NoKids A ∧
      ((after T o xs cur a).2 = none → A.ctx.isAL = false) := by
  have hxp : ∀ x ∈ xs, runeClass T o x.1 ∉ [cLRI, cRLI, cFSI, cPDI] := fun x hx => (hxs x hx).1.2.1
  have hR := after_ready _ xs cur a hr hxs
  have hRr := after_r (T := T) (o := o) xs cur a hr.notIso hxp
  have hbr : breaks (after T o xs cur a).1 (runeClass T o r) = true := by
    have hni := hR.notIso
    have h1 : rulesW1to3 (runeClass T o r) (after T o xs cur a).1 = runeClass T o r := (open_scrap (cur := (after T o xs cur a).1) n none hopc).1
    unfold breaks
    rw [h1]
    have : (after T o xs cur a).1.clz ≠ runeClass T o r := by
      intro e
      unfold isIsolate at hni
      rw [e] at hni
      rcases hopc with h | h <;> rw [h] at hni <;> cases hni
    simp [this]
  obtain ⟨o1, o2, o3⟩ := open_scrap (cur := (after T o xs cur a).1) n (after T o xs cur a).2 hopc
  have hsw : switchContext (after T o xs cur a).1 st (nextScrap (after T o xs cur a).1 (runeClass T o r) n) =
      ((after T o xs cur a).1, (after T o xs cur a).1.ctx :: st) := by
    unfold switchContext
    rw [if_pos]
    unfold isIsolate
    rw [o1]
    rcases hopc with h | h <;> rw [h] <;> decide
  obtain ⟨o4, o5⟩ := inherit_lr (nextScrap (after T o xs cur a).1 (runeClass T o r) n) (after T o xs cur a).1 (after T o xs cur a).2
  change _ = (after T o xs cur a).1.r at o4
  change _ = (after T o xs cur a).1.r + n at o5
  rw [hRr] at o4 o5
  refine ⟨_, fun M => ?_, o2, o3, o4, o5, inherit_noKids _ _ _ _ _, ?_⟩
  · have hsplit := emit_split (T := T) (o := o) r n M xs cur a st hr.notIso hxp hbr
    rw [hsw, if_neg (by rcases hopc with h | h <;> rw [h] <;> decide)] at hsplit
    exact hsplit
  · intro h
    have hs := (hR.latin h).1
    have he : (inheritStrongTypes (nextScrap (after T o xs cur a).1 (runeClass T o r) n) (after T o xs cur a).1 (after T o xs cur a).2).ctx.strong =
        (after T o xs cur a).1.ctx.strong := by
      unfold inheritStrongTypes
      rw [o1]
      rcases hopc with h | h <;> rw [h] <;> rfl
    unfold DirContext.isAL
    rw [he]
    rcases hs with hs | hs <;> rw [hs] <;> rfl

theorem setStrong_emb (d : DirContext) (c : Class) (p : Nat) : (d.setStrongType c p).embeddingDir = d.embeddingDir := by
  unfold DirContext.setStrongType
  repeat' split
  all_goals rfl

theorem inherit_emb (x y : Scrap) (a : Option Nat) (h : x.clz ≠ cLRI ∧ x.clz ≠ cRLI) : (inheritStrongTypes x y a).e = y.e := by
  unfold inheritStrongTypes
  rw [if_neg h.1, if_neg h.2]
  show DirContext.embeddingDir _ = y.ctx.embeddingDir
  dsimp only
  repeat' split
  all_goals simp only [setStrong_emb]

theorem rules_first {c : Class} {A : Scrap} (hc : c ≠ cNSM) (h : c = cEN → A.ctx.isAL = false) : rulesW1to3 c A = if c = cAL then cR else oneNeutral c := by
  unfold rulesW1to3
  rw [if_neg hc]
  by_cases h2 : c = cEN
  · rw [if_pos h2, h h2, h2]; rfl
  · rw [if_neg h2]
    rfl

/-- The first character of an isolate. -/
theorem first_step {T : Tables} {o : Options} {tile : Prop} {A : Scrap} {a : Option Nat} (st : List DirContext) {cs : List Class} (r n : Nat) (hA : A.clz = cLRI ∨ A.clz = cRLI)
    (hAe : A.e = isoDir A.clz) (hAal : a = none → A.ctx.isAL = false) (hc : PlainClass tile (runeClass T o r)) (hn : 0 < n)
    (hnum : NumbersLTR (isoDir A.clz) (runeClass T o r :: cs)) (har : a ≠ none → cEN ∉ runeClass T o r :: cs) :
    ∃ B : Scrap, (∀ M, emit T o ((r, n) :: M) A a st = A :: emit T o M B (if runeClass T o r = cAL then some A.r else a) st) ∧
      Ready tile B (if runeClass T o r = cAL then some A.r else a) cs ∧ B.l = A.r ∧ B.r = A.r + n ∧ NoKids B ∧ B.clz ≠ cNULL ∧
      (runeClass T o r ≠ cBRACKO ∧ runeClass T o r ≠ cBRACKC → NoBracket B) ∧
      (QuietText (runeClass T o r :: cs) → (cEN ∈ runeClass T o r :: cs → A.clz = cLRI) → Calm B cs) ∧
      (runeClass T o r ≠ cNSM → B.clz = if runeClass T o r = cAL then cR else oneNeutral (runeClass T o r)) ∧ B.e = A.e := by
  have hae : A.e = cL ∨ A.e = cR := by rw [hAe]; unfold isoDir; split <;> simp
  have hAi : isIsolate A = true ∧ A.clz ≠ cPDI ∧ A.clz ≠ cNULL := by
    unfold isIsolate
    rcases hA with h | h <;> rw [h] <;> decide
  have hal : runeClass T o r = cEN → A.ctx.isAL = false := by
    intro e
    cases a with
    | none => exact hAal rfl
    | some q => exact absurd (by rw [e]; simp) (har (by simp))
  have hB := ready_open (n := n) hA hae hAal hc hn hnum har
  have hla := next_plain (cur := A) n (Or.inr (Or.inr (hA.imp id Or.inl))) hc.2.1
  have hbr : breaks A (runeClass T o r) = true := by
    unfold breaks
    rw [hAi.1]; simp
  have hsw : switchContext A st (nextScrap A (runeClass T o r) n) = (A, st) := by
    unfold switchContext
    rw [if_neg (by rw [hla]; simp), if_neg hAi.2.1]
  obtain ⟨j1, j2⟩ := inherit_lr (nextScrap A (runeClass T o r) n) A a
  have j3 := inherit_clz (nextScrap A (runeClass T o r) n) A a
  refine ⟨_, fun M => ?_, hB, j1, j2, inherit_noKids _ _ _ _ _, ?_, fun hnb => ?_, fun hq hL => calm_open hA hc hal hq hL,
    fun hns => j3.trans (rules_first hns hal), inherit_emb _ _ _ ?_⟩
  · rw [emit]
    dsimp only
    rw [if_pos hbr, hsw, if_neg hAi.2.2]
    rfl
  · rw [j3]
    have := (first_class (hA.imp id Or.inl) hc hal).1
    intro e
    change rulesW1to3 (runeClass T o r) A = cNULL at e
    rw [e] at this
    exact absurd this (by decide)
  · have hAb : NoBracket A := by
      unfold NoBracket isBracket
      rcases hA with h | h <;> rw [h] <;> rfl
    have := next_noBracket hAb hnb
    unfold NoBracket isBracket at this ⊢
    rw [j3]
    exact this
  · unfold isIsolate at hla
    simp only [Bool.or_eq_false_iff, beq_eq_false_iff_ne] at hla
    exact hla.1.1

theorem rules_pdi {c : Class} {Z : Scrap} (hZ : Z.clz = cPDI) (h : c = cEN → Z.ctx.isAL = false) :
    rulesW1to3 c Z = if c = cNSM then cNI else if c = cAL then cR else oneNeutral c := by
  unfold rulesW1to3
  by_cases h1 : c = cNSM
  · rw [if_pos h1, if_pos h1, hZ]; rfl
  · rw [if_neg h1, if_neg h1]
    by_cases h2 : c = cEN
    · rw [if_pos h2, h h2, h2]; rfl
    · rw [if_neg h2]
      rfl

/-- The first character after an isolate. -/
theorem leave_step {T : Tables} {o : Options} {tile : Prop} {Z : Scrap} {d : DirContext} {a : Option Nat} (st : List DirContext) {cs : List Class} (r n : Nat) (hZ : Z.clz = cPDI)
    (hde : d.embeddingDir = cL ∨ d.embeddingDir = cR) (hZal : a = none → Z.ctx.isAL = false) (hc : PlainClass tile (runeClass T o r)) (hn : 0 < n)
    (hd : a = none → d.strong = cL ∨ d.strong = cR) (hdL : cEN ∈ runeClass T o r :: cs → d.strong = cL) (hq : QuietText (runeClass T o r :: cs))
    (har : a ≠ none → cEN ∉ runeClass T o r :: cs) :
    ∃ C : Scrap, (∀ M, emit T o ((r, n) :: M) Z a (d :: st) = Z :: emit T o M C (if runeClass T o r = cAL then some Z.r else a) st) ∧
      Ready tile C (if runeClass T o r = cAL then some Z.r else a) cs ∧ C.l = Z.r ∧ C.r = Z.r + n ∧ NoKids C ∧ C.clz ≠ cNULL ∧
      (runeClass T o r ≠ cBRACKO ∧ runeClass T o r ≠ cBRACKC → NoBracket C) ∧ Calm C cs ∧
      C.clz = (if runeClass T o r = cNSM then cNI else if runeClass T o r = cAL then cR else oneNeutral (runeClass T o r)) ∧ C.e = d.embeddingDir := by
  have hZi : isIsolate Z = true ∧ Z.clz ≠ cNULL := by
    unfold isIsolate
    rw [hZ]; decide
  have hal : runeClass T o r = cEN → Z.ctx.isAL = false := by
    intro e
    cases a with
    | none => exact hZal rfl
    | some q => exact absurd (by rw [e]; simp) (har (by simp))
  obtain ⟨c1, c2⟩ := ready_close (n := n) hZ hde hZal hc hn hd hdL hq har
  have hla := next_plain (cur := Z) n (Or.inr (Or.inr (Or.inr (Or.inr hZ)))) hc.2.1
  obtain ⟨j1, j2⟩ := inherit_lr (nextScrap Z (runeClass T o r) n) { Z with ctx := d } a
  have j3 := inherit_clz (nextScrap Z (runeClass T o r) n) { Z with ctx := d } a
  refine ⟨_, fun M => ?_, c1, j1, j2, inherit_noKids _ _ _ _ _, ?_, fun hnb => ?_, c2, j3.trans (rules_pdi hZ hal), ?_⟩
  · rw [emit]
    dsimp only
    have hb : breaks Z (runeClass T o r) = true := by
      unfold breaks; rw [hZi.1]; simp
    have hsw2 : switchContext Z (d :: st) (nextScrap Z (runeClass T o r) n) = ({ Z with ctx := d }, st) := by
      unfold switchContext
      rw [if_neg (by rw [hla]; simp), if_pos hZ]
    rw [if_pos hb, hsw2, if_neg hZi.2]
    rfl
  · rw [j3]
    have := (first_class (Or.inr (Or.inr hZ)) hc hal).1
    intro e
    change rulesW1to3 (runeClass T o r) Z = cNULL at e
    rw [e] at this
    exact absurd this (by decide)
  · have hZb : NoBracket Z := by
      unfold NoBracket isBracket
      rw [hZ]; rfl
    have := next_noBracket hZb hnb
    unfold NoBracket isBracket at this ⊢
    rw [j3]
    exact this
  · have hd : (nextScrap Z (runeClass T o r) n).clz ≠ cLRI ∧ (nextScrap Z (runeClass T o r) n).clz ≠ cRLI := by
      unfold isIsolate at hla
      simp only [Bool.or_eq_false_iff, beq_eq_false_iff_ne] at hla
      exact hla.1.1
    exact inherit_emb _ _ _ hd

/-- The PDI of an isolate. -/
theorem pdi_step {tile : Prop} {c' : Scrap} {a' : Option Nat} (n : Nat) (h : Ready tile c' a' []) :
    (inheritStrongTypes (nextScrap c' cPDI n) c' a').clz = cPDI ∧ (inheritStrongTypes (nextScrap c' cPDI n) c' a').l = c'.r ∧
    (inheritStrongTypes (nextScrap c' cPDI n) c' a').r = c'.r + n ∧ NoKids (inheritStrongTypes (nextScrap c' cPDI n) c' a') ∧
    (a' = none → (inheritStrongTypes (nextScrap c' cPDI n) c' a').ctx.isAL = false) := by
  obtain ⟨z1, z2, z3⟩ := close_scrap (cur := c') n a' h.notAL h.notIso
  obtain ⟨z4, z5⟩ := inherit_lr (nextScrap c' cPDI n) c' a'
  refine ⟨z2, z4, z5, inherit_noKids _ _ _ _ _, fun ha => ?_⟩
  have := z3 ha
  unfold DirContext.isAL
  rw [this]
  have hs := (h.latin ha).1
  have : nextStrong c' ≠ cAL := by
    unfold nextStrong
    split
    · decide
    · split
      · decide
      · rcases hs with hs | hs <;> rw [hs] <;> decide
  simpa using this

theorem outer_sub : ∀ (i : Isolates) (c : Char), c ∈ i.outer → c ∈ i.chars := by
  intro i
  induction i with
  | none => intro c h; cases h
  | more op lead inner cl after rest _ ih =>
    intro c h
    simp only [Isolates.outer, List.mem_append] at h
    simp only [Isolates.chars, List.mem_append, List.mem_cons]
    rcases h with h | h
    · exact Or.inr (Or.inr (Or.inl h))
    · exact Or.inr (Or.inr (Or.inr (ih c h)))

theorem classes_append (T : Tables) (o : Options) (a b : List Char) : classes T o (a ++ b) = classes T o a ++ classes T o b := by
  simp [classes]

theorem classes_cons (T : Tables) (o : Options) (c : Char) (b : List Char) : classes T o (c :: b) = charClass T o c :: classes T o b := rfl

theorem classes_sub {T : Tables} {o : Options} {a b : List Char} (h : ∀ c ∈ a, c ∈ b) {x : Class} (hx : x ∈ classes T o a) : x ∈ classes T o b := by
  rw [classes, List.mem_map] at hx ⊢
  obtain ⟨c, hc, rfl⟩ := hx
  exact ⟨c, h c hc, rfl⟩

/-- No bracket. -/
def Bare (T : Tables) (o : Options) (t : List Char) : Prop := ∀ c ∈ t, charClass T o c ≠ cBRACKO ∧ charClass T o c ≠ cBRACKC

theorem plain_tokens {T : Tables} {o : Options} {tile : Prop} {t : List Char} (h : ∀ c ∈ t, PlainClass tile (charClass T o c)) :
    ∀ x ∈ t.map token, PlainClass tile (runeClass T o x.1) ∧ 0 < x.2 := by
  intro x hx
  rw [List.mem_map] at hx
  obtain ⟨c, hc, rfl⟩ := hx
  refine ⟨?_, token_width c⟩
  show PlainClass tile (runeClass T o c.toNat)
  rw [runeClass_char]
  exact h c hc

theorem utf8_len_append (a b : List Char) : (utf8 (a ++ b)).length = (utf8 a).length + (utf8 b).length := by
  rw [← tokens_width, ← tokens_width, ← tokens_width, List.map_append, widthOf_append]

theorem utf8_len_cons (c : Char) (b : List Char) : (utf8 (c :: b)).length = (token c).2 + (utf8 b).length := by
  rw [← tokens_width, ← tokens_width, List.map_cons, widthOf_cons]

theorem kids_none {l : List Scrap} (h : ∀ s ∈ l, NoKids s) : kidsOf l = [] := by
  unfold kidsOf
  rw [List.flatMap_eq_nil_iff]
  exact h

/-! ### The text outside of isolates -/

/-- The scraps for the text outside of isolates; `bs` and `seg` are the classes of the bytes and
characters before the first one. -/
structure Outward (T : Tables) (o : Options) (tile start : Prop) (pos : Nat) (e : Class) (bs seg : List Class) (i : Isolates) (filled : Prop) (os : List Scrap) : Prop where
  emb : ∀ s ∈ os, s.e = e ∨ (s.e = cL ∧ i ≠ .none)
  bytes : tile → start → KnownClasses T → byteClasses os = bs ++ outBytes T o i
  gap : tile → start → KnownClasses T → ∀ e D, Clear T o e D pos seg i → Linked (Gap e D) os
  head : filled → ∃ x w, os = x :: w ∧ x.children = []

theorem emit_emb {T : Tables} {o : Options} {e : Class} (xs : List (Nat × Nat)) (cur : Scrap) (a : Option Nat) (st : List DirContext) (h : isIsolate cur = false) (he : cur.e = e)
    (hxs : ∀ x ∈ xs, runeClass T o x.1 ∉ [cLRI, cRLI, cFSI, cPDI]) : ∀ s ∈ emit T o xs cur a st, s.e = e := by
  intro s hs
  refine (emit_keeps (S := fun s => isIsolate s = false ∧ s.e = e) xs cur a st ⟨h, he⟩ ?_ ?_ s hs).2
  · intro cur a st r n hc hm
    have hla := next_plain (cur := cur) n (Or.inl hc.1) (hxs _ hm)
    rw [switch_plain hc.1 hla]
    have hd : (nextScrap cur (runeClass T o r) n).clz ≠ cLRI ∧ (nextScrap cur (runeClass T o r) n).clz ≠ cRLI := by
      have := hla
      unfold isIsolate at this
      simp only [Bool.or_eq_false_iff, beq_eq_false_iff_ne] at this
      exact this.1.1
    refine ⟨?_, by rw [inherit_emb _ _ _ hd]; exact hc.2⟩
    unfold isIsolate at hla ⊢
    rw [inherit_clz]
    exact hla
  · intro cur r n hc hm
    exact hc

theorem after_emb {T : Tables} {o : Options} : ∀ (xs : List (Nat × Nat)) (cur : Scrap) (a : Option Nat), isIsolate cur = false →
    (∀ x ∈ xs, runeClass T o x.1 ∉ [cLRI, cRLI, cFSI, cPDI]) → (after T o xs cur a).1.e = cur.e := by
  intro xs
  induction xs with
  | nil => intros; rfl
  | cons x xs ih =>
    obtain ⟨r, n⟩ := x
    intro cur a hi hxs
    have hla := next_plain (cur := cur) n (Or.inl hi) (hxs _ (List.mem_cons_self ..))
    have hd : (nextScrap cur (runeClass T o r) n).clz ≠ cLRI ∧ (nextScrap cur (runeClass T o r) n).clz ≠ cRLI := by
      have := hla
      unfold isIsolate at this
      simp only [Bool.or_eq_false_iff, beq_eq_false_iff_ne] at this
      exact this.1.1
    rw [after]
    split
    · rw [ih _ _ (by unfold isIsolate at hla ⊢; rw [inherit_clz]; exact hla) (fun x hx => hxs x (by simp [hx])), inherit_emb _ _ _ hd]
    · rw [ih _ _ (by exact hi) (fun x hx => hxs x (by simp [hx]))]
      rfl

theorem scanned_length : ∀ (cs : List Class) (p : Class), (scanned p cs).length = cs.length
  | [], _ => rfl
  | c :: cs, p => by rw [scanned, List.length_cons, List.length_cons, scanned_length cs]

theorem spread_last : ∀ (t : List Char) (xs : List Class), xs.length = t.length → (spread t xs).getLast? = xs.getLast? := by
  intro t
  induction t with
  | nil =>
    intro xs h
    cases xs with
    | nil => rfl
    | cons x xs => simp at h
  | cons c t ih =>
    intro xs h
    cases xs with
    | nil => simp at h
    | cons x xs =>
      rw [spread_cons, List.getLast?_append, ih xs (by simpa using h)]
      have := utf8_pos c
      cases xs with
      | nil => rw [List.getLast?_replicate, if_neg (by omega)]; rfl
      | cons y xs =>
        rw [List.getLast?_cons_cons, List.getLast?_eq_some_getLast (by simp)]
        rfl

theorem linked_noKids {e : Class} {D : List Class} {l : List Scrap} (h : ∀ s ∈ l, NoKids s) : Linked (Gap e D) l := by
  induction l with
  | nil => trivial
  | cons x l ih =>
    cases l with
    | nil => trivial
    | cons y l => exact ⟨fun _ _ hk => absurd (h y (by simp)) hk, ih (fun s hs => h s (by simp [hs]))⟩

/-- What the scanner knows is enough for the classes of the text. -/
theorem emit_outward {T : Tables} {o : Options} {tile : Prop} (xs : List Char) (cur : Scrap) (a : Option Nat) (st : List DirContext) {cs : List Class}
    (hr : Ready tile cur a (classes T o xs ++ cs)) (har : a ≠ none → cEN ∉ classes T o xs) (hal : AlLast (classes T o xs))
    (hxs : ∀ c ∈ xs, PlainClass tile (charClass T o c)) (ht : tile) (hT : KnownClasses T)
    (hs : cur.l ≤ cur.r ∧ (cur.clz = cNULL → (classes T o xs).head? ≠ some cNSM)) :
    byteClasses (emit T o (xs.map token) cur a st) =
        List.replicate (if cur.clz = cNULL then 0 else cur.r - cur.l) cur.clz ++ spread xs (scanned cur.clz (classes T o xs)) ∧
      (emit T o (xs.map token) cur a st).getLast?.map (·.clz) = ((if cur.clz = cNULL then [] else [cur.clz]) ++ scanned cur.clz (classes T o xs)).getLast? := by
  have hxt := plain_tokens hxs
  have hr' : Ready tile cur a (classesIn T o (xs.map token) ++ cs) := by rw [tokens_class]; exact hr
  obtain ⟨g1, -, -, -, -⟩ := emit_good (xs.map token) cur a st hr'.mono hxt
  have hb := (emit_bytes hT xs cur a st hr.notIso hr.notAL hs.1 hs.2 (fun c hc => by
    rw [classes, List.mem_map] at hc
    obtain ⟨x, hx, rfl⟩ := hc
    exact (hxs x hx).2.1) (by
      by_cases ha : a = none
      · refine Or.inl ⟨ha, ?_, hal⟩
        unfold DirContext.isAL
        rcases (hr.latin ha).1 with h | h <;> rw [h] <;> rfl
      · exact Or.inr (har ha))).1
  change byteClasses (emit T o (xs.map token) cur a st) = _ at hb
  refine ⟨hb, ?_⟩
  have hpos : ∀ s ∈ emit T o (xs.map token) cur a st, s.l < s.r := by
    intro s hs
    obtain ⟨f1, f2⟩ := g1 s hs
    rcases (f1.2.2.2 ht).2 with h | h
    · rw [f2] at h; cases h.1
    · exact h
  rw [← bytes_last hpos, hb, List.getLast?_append, List.getLast?_append, spread_last _ _ (by rw [scanned_length, classes, List.length_map])]
  congr 1
  by_cases hz : cur.clz = cNULL
  · rw [if_pos hz, if_pos hz]; rfl
  · rw [if_neg hz, if_neg hz, List.getLast?_replicate, if_neg]
    · rfl
    · rcases hr.fine with h | ⟨h, h'⟩
      · exact absurd h hz
      · rcases (h.2.2.2 ht).2 with k | k
        · rw [h'] at k; cases k.1
        · omega

theorem emit_nest {T : Tables} {o : Options} {tile : Prop} : ∀ (i : Isolates) (nested : Bool) (xs : List Char) (cur : Scrap) (a : Option Nat) (st : List DirContext),
    Ready tile cur a (classes T o (xs ++ i.outer)) →
    (i ≠ .none → Calm cur (classes T o (xs ++ i.outer)) ∧ QuietText (classes T o (xs ++ i.outer))) →
    (a ≠ none → cEN ∉ classes T o (xs ++ i.chars)) → AlLast (classes T o (xs ++ i.chars)) →
    (∀ c ∈ xs, PlainClass tile (charClass T o c)) → GoodIn T o tile i nested → NoKids cur →
    ∃ os c' a', Nests T o tile (if cur.clz = cNULL then cur.r else cur.l) (cur.r + (utf8 (xs ++ i.chars)).length)
        (cur.clz = cNULL → (classes T o (xs ++ i.chars)).head? ≠ some cNSM) nested i (cur.r + (utf8 xs).length)
        (NoBracket cur ∧ Bare T o (xs ++ i.outer)) (cur.clz ≠ cNULL) (emit T o ((xs ++ i.chars).map token) cur a st) os ∧
      (nested = true → Onward T o tile ((xs ++ i.chars).map token) cur a st (emit T o ((xs ++ i.chars).map token) cur a st) c' a') ∧
      Outward T o tile (cur.l ≤ cur.r ∧ (cur.clz = cNULL → (classes T o (xs ++ i.chars)).head? ≠ some cNSM)) (cur.r + (utf8 xs).length) cur.e
        (List.replicate (if cur.clz = cNULL then 0 else cur.r - cur.l) cur.clz ++ spread xs (scanned cur.clz (classes T o xs)))
        ((if cur.clz = cNULL then [] else [cur.clz]) ++ scanned cur.clz (classes T o xs)) i (cur.clz ≠ cNULL) os := by
  intro i
  induction i with
  | none =>
    intro nested xs cur a st hr _ har hal hxs _ hnk
    have e0 : xs ++ Isolates.none.chars = xs := by simp [Isolates.chars]
    have e1 : xs ++ Isolates.none.outer = xs := by simp [Isolates.outer]
    rw [e1] at hr
    rw [e0] at har hal
    rw [e0, e1]
    have hr0 : Ready tile cur a (classes T o xs ++ []) := by rw [List.append_nil]; exact hr
    rw [← tokens_class] at hr
    have hxt := plain_tokens hxs
    obtain ⟨g1, g2, -, g4, g5⟩ := emit_good (xs.map token) cur a st hr hxt
    have hk := emit_noKids (T := T) (o := o) (xs.map token) cur a st hnk
    refine ⟨_, _, _, ⟨?_, ?_, g1, g2, ?_, ?_, ?_, fun _ _ => trivial, ?_, ?_⟩, fun _ => onward_plain (xs.map token) cur a st hr hxt, ?_, ?_, ?_, ?_⟩
    · have := outline_more (fun s hs => (g1 s hs).2) Outline.nil
      simpa using this
    · intro d tail _ h
      exact Far.append (fun s hs => (g1 s hs).2) h.1
    · intro h1 h2
      rw [← tokens_class] at h2
      rw [← tokens_width]
      exact g5 h1 h2
    · intro _ s hs run hr
      rw [show s.children = [] from hk s hs] at hr; cases hr
    · intro _
      exact kids_none hk
    · intro hb
      refine emit_noBracket _ _ _ _ hb.1 ?_
      intro x hx
      rw [List.mem_map] at hx
      obtain ⟨c, hc, rfl⟩ := hx
      show runeClass T o c.toNat ≠ _ ∧ runeClass T o c.toNat ≠ _
      rw [runeClass_char]
      exact hb.2 c hc
    · intro hz
      obtain ⟨x, w, e, -⟩ := g4 hz
      exact ⟨x, w, e, (g1 x (by rw [e]; simp)).2⟩
    · intro s hs
      left
      exact emit_emb _ _ _ _ hr0.notIso rfl (fun x hx => (hxt x hx).1.2.1) s hs
    · intro a1 a2 a3
      rw [(emit_outward xs cur a st hr0 har hal hxs a1 a3 a2).1]
      exact (List.append_nil _).symm
    · intro _ _ _ _ _ _
      exact linked_noKids hk
    · intro hz
      obtain ⟨x, w, e, -⟩ := g4 hz
      exact ⟨x, w, e, hk x (by rw [e]; simp)⟩
  | more op lead inner cl aft rest ihin ihrest =>
    intro nested xs cur a st hr hcq har hal hxs hgood hnk
    obtain ⟨hop, hcl, hlead, hgap, hown, haft, hnum, hquiet, hgi, hgr⟩ := hgood
    obtain ⟨hcalm, hq⟩ := hcq (by simp)
    have eout : xs ++ (Isolates.more op lead inner cl aft rest).outer = xs ++ (aft ++ rest.outer) := rfl
    have eall : xs ++ (Isolates.more op lead inner cl aft rest).chars = xs ++ op :: ((lead ++ inner.chars) ++ cl :: (aft ++ rest.chars)) := by
      simp [Isolates.chars]
    rw [eout, classes_append] at hr hcalm hq
    rw [eall] at har hal
    rw [eall, eout]
    have hxt := plain_tokens hxs
    have hr' : Ready tile cur a (classesIn T o (xs.map token) ++ classes T o (aft ++ rest.outer)) := by rw [tokens_class]; exact hr
    -- the text before the isolate
    obtain ⟨g1, g2, -, g4, g5⟩ := emit_good (xs.map token) cur a st hr'.mono hxt
    have hk := emit_noKids (T := T) (o := o) (xs.map token) cur a st hnk
    have hR := after_ready _ (xs.map token) cur a hr' hxt
    have hC := after_calm (classes T o (aft ++ rest.outer)) (xs.map token) cur a hr' hxt (by rw [tokens_class]; exact hq) (by rw [tokens_class]; exact hcalm)
    have hAL := after_AL (T := T) (o := o) (xs.map token) cur a
    have hemb := after_emb (T := T) (o := o) (xs.map token) cur a hr.notIso (fun x hx => (hxt x hx).1.2.1)
    have hout0 := emit_emb (T := T) (o := o) (e := cur.e) (xs.map token) cur a st hr.notIso rfl (fun x hx => (hxt x hx).1.2.1)
    have hbytes := emit_outward (T := T) (o := o) (tile := tile) xs cur a st hr (fun h hm => har h (by rw [classes_append]; exact List.mem_append_left _ hm))
      (by
        intro p q e
        refine hal p (q ++ classes T o (op :: ((lead ++ inner.chars) ++ cl :: (aft ++ rest.chars)))) ?_
        rw [classes_append, e]; simp) hxs
    have hkeep : (after T o (xs.map token) cur a).2 = none → a = none := by
      intro h
      cases ha : a with
      | none => rfl
      | some q => exact absurd h (after_some _ cur a (by rw [ha]; simp))
    rw [tokens_class] at hAL
    have eop : runeClass T o (token op).1 = charClass T o op := runeClass_char T o op
    obtain ⟨A, A1, A2, A3, A4, A5, A6, A7⟩ := enter_step (xs.map token) cur a st (token op).1 (token op).2 hr' hxt (by rw [eop]; exact hop)
    rw [eop] at A2 A3
    rw [tokens_width] at A4 A5
    generalize (after T o (xs.map token) cur a).1 = cur' at *
    generalize (after T o (xs.map token) cur a).2 = a0 at *
    have hAc : A.clz = cLRI ∨ A.clz = cRLI := by rw [A2]; exact hop
    -- no European numbers after Arabic letters
    have har0 : a0 ≠ none → cEN ∉ classes T o (op :: ((lead ++ inner.chars) ++ cl :: (aft ++ rest.chars))) := by
      intro h
      rw [classes_append] at har hal
      rcases hAL h with h' | h'
      · exact fun hm => har h' (List.mem_append_right _ hm)
      · exact alLast_mem hal h'
    have hal0 : AlLast (classes T o (op :: ((lead ++ inner.chars) ++ cl :: (aft ++ rest.chars)))) := by
      rw [classes_append] at hal
      exact alLast_append hal
    have hal1 : AlLast (classes T o ((lead ++ inner.chars) ++ cl :: (aft ++ rest.chars))) :=
      alLast_append (pre := [charClass T o op]) hal0
    have har1 : a0 ≠ none → cEN ∉ classes T o ((lead ++ inner.chars) ++ cl :: (aft ++ rest.chars)) := fun h hm => har0 h (List.mem_cons_of_mem _ hm)
    -- the first character of the isolate
    cases hl : lead with
    | nil => exact absurd hl hlead
    | cons y ys =>
    subst hl
    have ey : runeClass T o (token y).1 = charClass T o y := runeClass_char T o y
    have hownc : classes T o ((y :: ys) ++ inner.outer) = charClass T o y :: classes T o (ys ++ inner.outer) := rfl
    rw [hownc] at hnum hquiet
    have hsub1 : ∀ c ∈ (y :: ys) ++ inner.outer, c ∈ ((y :: ys) ++ inner.chars) ++ cl :: (aft ++ rest.chars) := by
      intro c hc
      rw [List.mem_append] at hc ⊢
      left
      rw [List.mem_append]
      exact hc.imp id (outer_sub inner c)
    obtain ⟨B, B1, B2, B3, B4, B5, B6, B7, B8, B9, B10⟩ := first_step (T := T) (o := o) (tile := tile) (a := a0) (cs := classes T o (ys ++ inner.outer)) (cur'.ctx :: st)
      (token y).1 (token y).2 hAc (by rw [A3, A2]) A7 (by rw [ey]; exact (hown y (by simp)).1) (token_width y)
      (by rw [ey, A2]; exact hnum) (by
        intro h hm
        rw [ey, ← hownc] at hm
        exact har1 h (classes_sub hsub1 hm))
    rw [ey] at B1 B2 B7 B8 B9
    rw [A2] at B8
    generalize ha1 : (if charClass T o y = cAL then some A.r else a0) = a1 at *
    -- the text of the isolate
    have hal2 : AlLast (classes T o ((ys ++ inner.chars) ++ cl :: (aft ++ rest.chars))) := alLast_append (pre := [charClass T o y]) hal1
    have ha1' : a1 ≠ none → a0 ≠ none ∨ charClass T o y = cAL := by
      intro h
      rw [← ha1] at h
      split at h
      · exact Or.inr (by assumption)
      · exact Or.inl h
    have ha1k : a1 = none → a0 = none := by
      intro h
      rw [← ha1] at h
      split at h
      · cases h
      · exact h
    have har2 : a1 ≠ none → cEN ∉ classes T o ((ys ++ inner.chars) ++ cl :: (aft ++ rest.chars)) := by
      intro h
      rcases ha1' h with h' | h'
      · exact fun hm => har1 h' (List.mem_cons_of_mem _ hm)
      · exact alLast_mem (pre := [charClass T o y]) hal1 (by rw [h']; simp)
    obtain ⟨obody, c1, a2, hN, hO, hI⟩ := ihin true ys B a1 (cur'.ctx :: st) B2 (fun h => ⟨B8 (hquiet h).1 (hquiet h).2, quiet_append (pre := [charClass T o y]) (hquiet h).1⟩)
      (fun h hm => har2 h (by rw [classes_append]; exact List.mem_append_left _ hm))
      (by
        intro p q e
        refine hal2 p (q ++ classes T o (cl :: (aft ++ rest.chars))) ?_
        rw [classes_append, e]; simp)
      (fun c hc => (hown c (by simp [hc])).1) hgi B5
    obtain ⟨O1, O2, O3, O4, O5⟩ := hO rfl
    rw [tokens_class] at O5
    rw [tokens_width] at O3
    generalize hbody : emit T o ((ys ++ inner.chars).map token) B a1 (cur'.ctx :: st) = body at *
    rw [if_neg B6, B3, B4] at hN
    rw [B4] at O3
    -- the PDI
    have ecl : runeClass T o (token cl).1 = cPDI := by rw [← hcl]; exact runeClass_char T o cl
    obtain ⟨Z1, Z2, Z3, Z4, Z5⟩ := pdi_step (token cl).2 O2
    have hstep := fun more => O1 (token cl).1 (token cl).2 more ecl
    generalize inheritStrongTypes (nextScrap c1 cPDI (token cl).2) c1 a2 = Z at *
    have hZi : isIsolate Z = true ∧ Z.clz ≠ cNULL ∧ opens Z = false := by
      unfold isIsolate opens
      rw [Z1]; decide
    -- the text after the isolate
    have hal3 : AlLast (classes T o (aft ++ rest.chars)) := by
      rw [classes_append] at hal2
      exact alLast_append (pre := [charClass T o cl]) (alLast_append hal2)
    have har3 : a2 ≠ none → cEN ∉ classes T o (aft ++ rest.chars) := by
      intro h
      have : cEN ∉ classes T o (cl :: (aft ++ rest.chars)) := by
        rw [classes_append] at hal2 har2
        rcases O5 h with h' | h'
        · exact fun hm => har2 h' (List.mem_append_right _ hm)
        · exact alLast_mem hal2 h'
      exact fun hm => this (List.mem_cons_of_mem _ hm)
    have htail : ∃ tail otail c' a', emit T o ((aft ++ rest.chars).map token) Z a2 (cur'.ctx :: st) = Z :: tail ∧
        Nests T o tile Z.r (Z.r + (utf8 (aft ++ rest.chars)).length) True nested rest (Z.r + (utf8 aft).length) (Bare T o (aft ++ rest.outer)) (aft ≠ []) tail otail ∧
        (nested = true → (∀ r n more, runeClass T o r = cPDI → emit T o ((aft ++ rest.chars).map token ++ (r, n) :: more) Z a2 (cur'.ctx :: st) =
            Z :: (tail ++ emit T o more (inheritStrongTypes (nextScrap c' cPDI n) c' a') a' st)) ∧ Ready tile c' a' [] ∧
          c'.r = Z.r + (utf8 (aft ++ rest.chars)).length ∧ (a' = none → a2 = none) ∧ (a' ≠ none → a2 ≠ none ∨ cAL ∈ classes T o (aft ++ rest.chars))) ∧
        Outward T o tile True (Z.r + (utf8 aft).length) cur.e (spread aft (scanned cNI (classes T o aft))) (scanned cNI (classes T o aft)) rest (aft ≠ []) otail := by
      cases haf : aft with
      | nil =>
        obtain ⟨hn0, hr0⟩ := hgap haf
        rw [hr0, hn0]
        refine ⟨[], [], Z, a2, ?_, ⟨.nil, ?_, by simp, trivial, fun _ _ => ?_, by simp, fun _ => ?_, fun _ _ => trivial, by simp, by simp⟩, by simp, by simp, fun _ _ _ => rfl, fun _ _ _ _ _ _ => trivial, by simp⟩
        · show emit T o [] Z a2 (cur'.ctx :: st) = [Z]
          rw [emit, if_neg hZi.2.1]
        · intro d tail h1 h2
          have hd : d = 0 := by
            cases d with
            | zero => rfl
            | succ d => exact absurd (h1 (by omega)) (by simp)
          rw [h2.2.1 hd, List.nil_append]
          exact trivial
        · simp [Tiles, Isolates.chars, utf8]
        · rfl
      | cons y2 ys2 =>
        subst haf
        have ey2 : runeClass T o (token y2).1 = charClass T o y2 := runeClass_char T o y2
        have hcs : classes T o ((y2 :: ys2) ++ rest.outer) = charClass T o y2 :: classes T o (ys2 ++ rest.outer) := rfl
        rw [hcs] at hR hC hq
        have hq1 := quiet_append hq
        have hsub : ∀ c ∈ (y2 :: ys2) ++ rest.outer, c ∈ (y2 :: ys2) ++ rest.chars := by
          intro c hc
          rw [List.mem_append] at hc ⊢
          exact hc.imp id (outer_sub rest c)
        obtain ⟨C, C1, C2, C3, C4, C5, C6, C7, C8, C9, C10⟩ := leave_step (T := T) (o := o) (tile := tile) (a := a2) (d := cur'.ctx) (cs := classes T o (ys2 ++ rest.outer)) st
          (token y2).1 (token y2).2 Z1 hR.emb Z5 (by rw [ey2]; exact haft y2 (by simp)) (token_width y2)
          (fun h => (hR.latin (ha1k (O4 h))).1) (by rw [ey2]; exact fun h => (hC h).1) (by rw [ey2]; exact hq1) (by
            intro h hm
            rw [ey2, ← hcs] at hm
            exact har3 h (classes_sub hsub hm))
        rw [ey2] at C1 C2 C7 C9
        have C11 : C.e = cur.e := C10.trans hemb
        generalize ha3 : (if charClass T o y2 = cAL then some Z.r else a2) = a3 at *
        have ha3' : a3 ≠ none → a2 ≠ none ∨ charClass T o y2 = cAL := by
          intro h
          rw [← ha3] at h
          split at h
          · exact Or.inr (by assumption)
          · exact Or.inl h
        obtain ⟨otail, c', a', hN', hO', hW⟩ := ihrest nested ys2 C a3 st C2 (fun _ => ⟨C8, quiet_append (pre := [charClass T o y2]) hq1⟩)
          (by
            intro h
            rcases ha3' h with h' | h'
            · exact fun hm => har3 h' (List.mem_cons_of_mem _ hm)
            · exact alLast_mem (pre := [charClass T o y2]) hal3 (by rw [h']; simp))
          (alLast_append (pre := [charClass T o y2]) hal3) (fun c hc => haft c (by simp [hc])) hgr C5
        rw [if_neg C6, C3, C4] at hN'
        have w1 : Z.r + (token y2).2 + (utf8 (ys2 ++ rest.chars)).length = Z.r + (utf8 ((y2 :: ys2) ++ rest.chars)).length := by
          rw [List.cons_append, utf8_len_cons, Nat.add_assoc]
        have w2 : Z.r + (token y2).2 + (utf8 ys2).length = Z.r + (utf8 (y2 :: ys2)).length := by rw [utf8_len_cons, Nat.add_assoc]
        rw [w1, w2] at hN'
        refine ⟨_, otail, c', a', C1 _, ⟨hN'.outline, hN'.far, hN'.fine, hN'.num, fun ht _ => hN'.tiles ht (fun e => absurd e C6), hN'.housed, hN'.runs, hN'.raw,
          fun hb => hN'.bare ⟨C7 (hb y2 (by simp)), fun c hc => hb c (by
            simp only [List.cons_append, List.mem_cons]; exact Or.inr hc)⟩, fun _ => hN'.head C6⟩, fun hn => ?_, ?_⟩
        rotate_left
        · rw [if_neg C6, if_neg C6, C3, C4, C11, w2] at hW
          have hsc : scanned cNI (classes T o (y2 :: ys2)) = C.clz :: scanned C.clz (classes T o ys2) := by
            rw [classes_cons, scanned, ← C9]
          have hsp : spread (y2 :: ys2) (scanned cNI (classes T o (y2 :: ys2))) =
              List.replicate (Z.r + (token y2).2 - Z.r) C.clz ++ spread ys2 (scanned C.clz (classes T o ys2)) := by
            rw [hsc, spread_cons, Nat.add_sub_cancel_left]
            rfl
          have hst : Z.r ≤ Z.r + (token y2).2 ∧ (C.clz = cNULL → (classes T o (ys2 ++ rest.chars)).head? ≠ some cNSM) := ⟨by omega, fun e => absurd e C6⟩
          refine ⟨hW.emb, fun u1 _ u3 => ?_, fun u1 _ u3 e' D u4 => hW.gap u1 hst u3 e' D ?_, fun _ => hW.head C6⟩
          · rw [hW.bytes u1 hst u3, hsp]
          · rw [hsc] at u4
            exact u4
        obtain ⟨P1, P2, P3, P4, P5⟩ := hO' hn
        refine ⟨fun r n more hc => ?_, P2, ?_, fun h => ?_, fun h => ?_⟩
        · have := C1 ((ys2 ++ rest.chars).map token ++ (r, n) :: more)
          rw [P1 r n more hc] at this
          exact this
        · rw [P3, tokens_width, C4, w1]
        · have := P4 h
          rw [← ha3] at this
          split at this
          · cases this
          · exact this
        · rw [tokens_class] at P5
          rcases P5 h with h' | h'
          · rcases ha3' h' with h'' | h''
            · exact Or.inl h''
            · right
              rw [List.cons_append, classes_cons, h'']; simp
          · right
            rw [List.cons_append, classes_cons]
            exact List.mem_cons_of_mem _ h'
    obtain ⟨tail, otail, c', a', t1, t2, t3, t9⟩ := htail
    -- the scraps
    have hmap : ∀ M, (xs ++ op :: (((y :: ys) ++ inner.chars) ++ cl :: (aft ++ rest.chars))).map token ++ M =
        xs.map token ++ (token op) :: ((token y) :: ((ys ++ inner.chars).map token ++ (token cl) :: ((aft ++ rest.chars).map token ++ M))) := by
      intro M; simp
    have hscr : ∀ M, emit T o ((xs ++ op :: (((y :: ys) ++ inner.chars) ++ cl :: (aft ++ rest.chars))).map token ++ M) cur a st =
        emit T o (xs.map token) cur a st ++ A :: (body ++ emit T o ((aft ++ rest.chars).map token ++ M) Z a2 (cur'.ctx :: st)) := by
      intro M
      rw [hmap, A1, B1, hstep]
    have hscr0 := hscr []
    rw [List.append_nil, List.append_nil, t1] at hscr0
    rw [hscr0]
    -- the isolate
    have hZl : Z.l = A.r + (token y).2 + (utf8 (ys ++ inner.chars)).length := by rw [Z2, O3]
    rw [← hZl] at hN
    have hbare : ∀ s ∈ obody, NoBracket s := hN.bare ⟨B7 (hown y (by simp)).2, fun c hc => (hown c (by
      simp only [List.cons_append, List.mem_cons]; exact Or.inr hc)).2⟩
    obtain ⟨b0, b1, hb0, hb1⟩ := hN.head B6
    have hbne : body ≠ [] := by rw [hb0]; simp
    have hyw := token_width y
    have hcw := token_width cl
    have how := token_width op
    obtain ⟨ws, zs, k1, k2, k3, k4, k5, k6, k7, ⟨mid, k8, k11⟩, k9, k10⟩ := inner_nest (tile := tile) (z := Z) (K := kidsOf obody)
      (H := tile ∧ KnownClasses T ∧ (classes T o (y :: ys)).head? ≠ some cNSM ∧ (∀ x ∈ ownBytes T o (y :: ys) inner, x ∈ [cL, cR, cNI, cEN]) ∧
        (inner ≠ .none → charClass T o op = cLRI) ∧ Clear T o A.e (List.replicate A.r A.e ++ n12 A.e A.e ((ownBytes T o (y :: ys) inner).map settle))
          (A.r + (utf8 (y :: ys)).length) (scanned cNULL (classes T o (y :: ys))) inner)
      (B := (ownBytes T o (y :: ys) inner).map settle) hAc (by rw [A3]; unfold isoDir; split <;> simp) A6
      (by rw [A4, A5]; omega) hN.outline
      ⟨⟨by simpa using hN.fine, by simpa using hN.num, fun ht => by simpa using hN.tiles ht (fun e => absurd e B6), by simp⟩, rfl, by simpa using hN.housed⟩ hbare
      (by
        rintro ⟨u1, u2, u3, u4, u5, u6⟩
        have hns : charClass T o y ≠ cNSM := by
          intro h; exact u3 (by rw [classes_cons, h]; rfl)
        have hclz := B9 hns
        have hsc : scanned cNULL (classes T o (y :: ys)) = B.clz :: scanned B.clz (classes T o ys) := by
          rw [classes_cons, scanned, if_neg hns, ← hclz]
        have hsp : spread (y :: ys) (scanned cNULL (classes T o (y :: ys))) = List.replicate (B.r - B.l) B.clz ++ spread ys (scanned B.clz (classes T o ys)) := by
          rw [hsc, spread_cons, B3, B4, Nat.add_sub_cancel_left]
          rfl
        have hst : B.l ≤ B.r ∧ (B.clz = cNULL → (classes T o (ys ++ inner.chars)).head? ≠ some cNSM) := ⟨by rw [B3, B4]; omega, fun e => absurd e B6⟩
        have hbt := hI.bytes u1 hst u2
        rw [if_neg B6, ← hsp] at hbt
        change byteClasses obody = ownBytes T o (y :: ys) inner at hbt
        have hgp := hI.gap u1 hst u2 A.e (List.replicate A.r A.e ++ n12 A.e A.e ((ownBytes T o (y :: ys) inner).map settle)) (by
          rw [if_neg B6, List.singleton_append, ← hsc, B4]
          rw [utf8_len_cons, ← Nat.add_assoc] at u6
          exact u6)
        have hfine : ∀ s ∈ obody, Fine True s ∧ isIsolate s = false ∧ s.l < s.r := by
          intro s hs
          obtain ⟨f1, f2⟩ := hN.fine s hs
          refine ⟨⟨f1.1, f1.2.1, f1.2.2.1, fun _ => f1.2.2.2 u1⟩, f2, ?_⟩
          rcases (f1.2.2.2 u1).2 with h | h
          · rw [f2] at h; cases h.1
          · exact h
        refine ⟨⟨fun s hs => ?_, by simpa using hN.num, fun _ => by simpa using hN.tiles u1 (fun e => absurd e B6), by simp⟩, fun s hs => ?_, by rw [List.nil_append, hbt], hgp, ?_⟩
        · rw [List.nil_append] at hs
          exact ⟨(hfine s hs).1, (hfine s hs).2.1⟩
        · rw [List.nil_append] at hs
          have hm := mem_bytes hs (hfine s hs).2.2
          rw [hbt] at hm
          refine ⟨u4 _ hm, ?_, (hfine s hs).2.2⟩
          rcases hI.emb s hs with h | ⟨h, h'⟩
          · rw [h, B10]
          · rw [h, A3, u5 h']; rfl
        · cases obody <;> trivial)
    obtain ⟨f1, f2, f3, f4, f5⟩ := isoScrap_fine (tile := tile) (a := A) (z := Z) k4 (by rw [A4, hZl, A5]; omega) (by rw [Z2, Z3]; omega) k5
    have hkb := outline_known hN.outline (fun s hs => (hN.fine s hs).1.1)
    have hAo : opens A = true := by
      unfold opens
      rcases hAc with h | h <;> rw [h] <;> rfl
    have hout : Outline (A :: (body ++ Z :: tail)) (isoScrap Z zs :: otail) := by
      refine .iso ?_ (hAc.imp id Or.inl) Z1 hbne (outline_even hN.outline) k1 k2 k3 t2.outline
      intro x hx
      simp only [List.mem_cons, List.mem_append, List.not_mem_nil, or_false] at hx
      rcases hx with rfl | hx | rfl
      · rcases hAc with h | h <;> rw [h] <;> decide
      · exact hkb x hx
      · rw [Z1]; decide
    have hlead' : ¬ LeadsEN (isoScrap Z zs :: otail) := by
      rintro (h | ⟨h, -⟩)
      · exact absurd (show cNI = cEN from h) (by decide)
      · exact absurd (show cNI = cET from h) (by decide)
    have ekids : kidsOf (emit T o (xs.map token) cur a st ++ isoScrap Z zs :: otail) = (zs ++ [Z]) :: kidsOf otail := by
      have := kids_none hk
      unfold kidsOf at this ⊢
      rw [List.flatMap_append, this, List.flatMap_cons]
      rfl
    have ezr : Z.r = cur.r + (utf8 xs).length + (utf8 (op :: ((y :: ys) ++ inner.chars) ++ [cl])).length := by
      rw [Z3, ← Z2, hZl, A5]
      simp only [List.cons_append, utf8_len_cons, utf8_len_append]
      simp only [utf8, List.flatMap_nil, List.length_nil]
      omega
    have ezr' : Z.r + (utf8 (aft ++ rest.chars)).length = cur.r + (utf8 (xs ++ op :: (((y :: ys) ++ inner.chars) ++ cl :: (aft ++ rest.chars)))).length := by
      rw [Z3, ← Z2, hZl, A5]
      simp only [List.cons_append, utf8_len_cons, utf8_len_append]
      omega
    refine ⟨emit T o (xs.map token) cur a st ++ isoScrap Z zs :: otail, c', a', ⟨?_, ?_, ?_, ?_, ?_, ?_, ?_, ?_, ?_, ?_⟩, fun hn => ?_, ?_, ?_, ?_, ?_⟩
    · exact outline_more (fun s hs => (g1 s hs).2) hout
    · intro d T' hd hE
      have e : emit T o (xs.map token) cur a st ++ A :: (body ++ Z :: tail) ++ T' = emit T o (xs.map token) cur a st ++ A :: (body ++ Z :: (tail ++ T')) := by simp
      rw [e]
      have hR' := t2.far d T' hd hE
      have hlen : 2 * d ≤ (tail ++ T').length ∧ ((d = 0 ∧ tail ++ T' = []) ∨ ∃ x w, tail ++ T' = x :: w ∧ isIsolate x = false) := by
        by_cases haf : aft = []
        · have hd0 : d = 0 := by
            cases d with
            | zero => rfl
            | succ d => rw [(hgap haf).1] at hd; exact absurd (hd (by omega)) (by simp)
          have htl : tail = [] := by
            have h1 := t1
            rw [haf, (hgap haf).2] at h1
            change emit T o [] Z a2 (cur'.ctx :: st) = _ at h1
            rw [emit, if_neg hZi.2.1] at h1
            simpa using h1.symm
          refine ⟨by omega, Or.inl ⟨hd0, ?_⟩⟩
          rw [htl, hE.2.1 hd0]; rfl
        · obtain ⟨x, w, e1, e2⟩ := t2.head haf
          refine ⟨?_, Or.inr ⟨x, w ++ T', by rw [e1]; rfl, e2⟩⟩
          cases d with
          | zero => omega
          | succ d =>
            obtain ⟨z, v, e3, -, e4⟩ := hE.2.2 (by omega)
            rw [e1, e3]
            simp only [List.length_append, List.length_cons]
            omega
      refine Far.append (fun s hs => (g1 s hs).2) (far_iso hAo Z1 hbne (fun h => hN.far (d + 1) _ (fun _ => rfl) ⟨h, by omega, fun _ => ⟨Z, _, rfl, Z1, ?_⟩⟩) hR' hlen.1 hlen.2)
      simpa using hlen.1
    · intro s hs
      rw [List.mem_append, List.mem_cons] at hs
      rcases hs with hs | rfl | hs
      · exact g1 s hs
      · exact ⟨f1, f2⟩
      · exact t2.fine s hs
    · exact numOk_append ⟨fun h => absurd h hlead', t2.num⟩ hlead' _ g2
    · intro ht hfirst
      refine tiles_append.mpr ⟨A.l, ?_, f4 ht, ?_⟩
      · rw [A4, ← tokens_width]
        refine g5 ht ?_
        intro e h
        refine hfirst e ?_
        rw [tokens_class] at h
        rw [classes_append]
        cases hx : classes T o xs with
        | nil => rw [hx] at h; cases h
        | cons c cs => rw [hx] at h; exact h
      · rw [f3, ← ezr']
        exact t2.tiles ht trivial
    · intro ht s hs
      rw [List.mem_append, List.mem_cons] at hs
      rcases hs with hs | rfl | hs
      · intro run hr
        rw [show s.children = [] from hk s hs] at hr; cases hr
      · intro run hr
        have : run = zs ++ [Z] := by simpa [isoScrap] using hr
        rw [this]
        exact ⟨A.l, Z.r, Nat.le_of_eq (f4 ht), Nat.le_of_eq f3.symm, f5 ht⟩
      · exact t2.housed ht s hs
    · intro ht
      rw [ekids]
      refine ⟨zs ++ [Z], kidsOf otail, rfl, ?_, ?_, ⟨A, mid, Z, by rw [k8]; rfl, ⟨A2, by rw [A4, A5]; rfl, A6⟩, ⟨Z1.trans hcl.symm, by rw [Z2, Z3]; rfl, Z4⟩⟩, ?_, ?_, ?_, ?_⟩
      · rw [← ezr, ← A4]
        exact f5 ht
      · intro s hs
        rw [List.mem_append, List.mem_singleton] at hs
        rcases hs with hs | rfl
        · exact k7 ht s hs
        · intro run hr
          rw [show s.children = [] from Z4] at hr; cases hr
      · intro pre x y post e hd
        have hl : Linked Differ (zs ++ [Z]) := linked_append.mpr ⟨k9, trivial, fun u _ v hv hd' => by
          rw [List.head?_cons, Option.mem_def, Option.some.injEq] at hv
          subst hv
          rcases hd'.2 with h | h
          · exact absurd ((hd'.1.symm.trans h).symm.trans Z1) (by decide)
          · exact absurd ((hd'.1.symm.trans h).symm.trans Z1) (by decide)⟩
        rw [e] at hl
        exact (linked_append.mp hl).2.1.1 hd
      · intro s hs
        rw [List.mem_append, List.mem_singleton] at hs
        rcases hs with hs | rfl
        · exact k10 s hs
        · rw [Z1]; decide
      · have e1 : nestedRuns (zs ++ [Z]) = kidsOf obody := by
          rw [← k6]
          show (zs ++ [Z]).flatMap (·.children) = zs.flatMap (·.children)
          rw [List.flatMap_append]
          simp [show Z.children = [] from Z4]
        rw [e1]
        have e2 : cur.r + (utf8 xs).length + (utf8 (op :: y :: ys)).length = A.r + (token y).2 + (utf8 ys).length := by
          rw [A5]
          simp only [utf8_len_cons]
          omega
        rw [e2]
        exact hN.runs ht
      · have e2 : cur.r + (utf8 xs).length + (utf8 (op :: ((y :: ys) ++ inner.chars) ++ cl :: aft)).length = Z.r + (utf8 aft).length := by
          rw [ezr]
          simp only [List.cons_append, utf8_len_cons, utf8_len_append]
          simp only [utf8, List.flatMap_nil, List.length_nil]
          omega
        rw [e2]
        exact t2.runs ht
    · intro ht hT
      rw [ekids]
      have eAr : A.r = cur.r + (utf8 xs).length + (utf8 [op]).length := by rw [A5]; rfl
      have epos : cur.r + (utf8 xs).length + (utf8 (op :: y :: ys)).length = A.r + (utf8 (y :: ys)).length := by
        rw [eAr, utf8_len op]; omega
      refine ⟨A, mid, Z, kidsOf otail, by rw [k8]; rfl, eAr, fun v1 v2 v3 v4 => ?_, ?_, ?_⟩
      · rw [← eAr, ← A3, epos] at v4
        rw [← A3]
        exact k11 ⟨ht, hT, v1, v2, v3, v4⟩
      · have e1 : kidsOf (A :: (mid ++ [Z])) = kidsOf obody := by
          rw [← k6, k8]
          show (A :: mid ++ [Z]).flatMap (·.children) = (A :: mid).flatMap (·.children)
          rw [List.flatMap_append]
          simp [show Z.children = [] from Z4]
        have e2 : cur.r + (utf8 xs).length + (utf8 (op :: y :: ys)).length = A.r + (token y).2 + (utf8 ys).length := by
          rw [A5]
          simp only [utf8_len_cons]
          omega
        rw [e1, e2]
        exact hN.raw ht hT
      · have e2 : cur.r + (utf8 xs).length + (utf8 (op :: ((y :: ys) ++ inner.chars) ++ cl :: aft)).length = Z.r + (utf8 aft).length := by
          rw [ezr]
          simp only [List.cons_append, utf8_len_cons, utf8_len_append]
          simp only [utf8, List.flatMap_nil, List.length_nil]
          omega
        rw [e2]
        exact t2.raw ht hT
    · intro hb s hs
      rw [List.mem_append, List.mem_cons] at hs
      rcases hs with hs | rfl | hs
      · refine emit_noBracket _ _ _ _ hb.1 ?_ s hs
        intro x hx
        rw [List.mem_map] at hx
        obtain ⟨c, hc, rfl⟩ := hx
        show runeClass T o c.toNat ≠ _ ∧ runeClass T o c.toNat ≠ _
        rw [runeClass_char]
        exact hb.2 c (List.mem_append_left _ hc)
      · rfl
      · exact t2.bare (fun c hc => hb.2 c (List.mem_append_right _ hc)) s hs
    · intro hz
      obtain ⟨x, w, e, -⟩ := g4 hz
      exact ⟨x, _, by rw [e]; rfl, (g1 x (by rw [e]; simp)).2⟩
    · obtain ⟨t4, t5, t6, t7, t8⟩ := t3 hn
      refine ⟨fun r n more hc => ?_, t5, ?_, fun h => ?_, fun h => ?_⟩
      · rw [hscr, t4 r n more hc]
        simp
      · rw [t6, tokens_width, ezr']
      · exact hkeep (ha1k (O4 (t7 h)))
      · rw [tokens_class]
        have hin : ∀ (t : List Char), (∀ c ∈ t, c ∈ xs ++ op :: (((y :: ys) ++ inner.chars) ++ cl :: (aft ++ rest.chars))) → cAL ∈ classes T o t →
            cAL ∈ classes T o (xs ++ op :: (((y :: ys) ++ inner.chars) ++ cl :: (aft ++ rest.chars))) := fun t h1 h2 => classes_sub h1 h2
        rcases t8 h with h | h
        · rcases O5 h with h | h
          · rcases ha1' h with h | h
            · rcases hAL h with h | h
              · exact Or.inl h
              · exact Or.inr (hin xs (by intro c hc; simp [hc]) h)
            · refine Or.inr (hin [y] (by intro c hc; simp at hc; simp [hc]) ?_)
              show cAL ∈ [charClass T o y]
              rw [h]; simp
          · refine Or.inr (hin _ (fun c hc => ?_) h)
            rw [List.mem_append] at hc
            rcases hc with hc | hc <;> simp [hc]
        · refine Or.inr (hin _ (fun c hc => ?_) h)
          rw [List.mem_append] at hc
          rcases hc with hc | hc <;> simp [hc]
    · intro s hs
      rw [List.mem_append, List.mem_cons] at hs
      rcases hs with hs | rfl | hs
      · exact Or.inl (hout0 s hs)
      · exact Or.inr ⟨rfl, by simp⟩
      · exact (t9.emb s hs).imp id (fun h => ⟨h.1, by simp⟩)
    · intro u1 u2 u3
      have hst : cur.l ≤ cur.r ∧ (cur.clz = cNULL → (classes T o xs).head? ≠ some cNSM) := ⟨u2.1, fun e h => u2.2 e (by
        rw [classes_append]
        cases hx : classes T o xs with
        | nil => rw [hx] at h; cases h
        | cons c cs => rw [hx] at h; exact h)⟩
      have hw : (isoScrap Z zs).r - (isoScrap Z zs).l = (utf8 (op :: ((y :: ys) ++ inner.chars) ++ [cl])).length := by
        rw [f3, f4 u1, ezr, A4]; omega
      rw [bytes_append, bytes_cons, hw, (hbytes u1 u3 hst).1, t9.bytes u1 trivial u3]
      rfl
    · intro u1 u2 u3 e' D u4
      have hst : cur.l ≤ cur.r ∧ (cur.clz = cNULL → (classes T o xs).head? ≠ some cNSM) := ⟨u2.1, fun e h => u2.2 e (by
        rw [classes_append]
        cases hx : classes T o xs with
        | nil => rw [hx] at h; cases h
        | cons c cs => rw [hx] at h; exact h)⟩
      have hpos : (isoScrap Z zs).l = cur.r + (utf8 xs).length := by
        rw [f4 u1, A4]
      have hcl' := u4.2
      have hend : cur.r + (utf8 xs).length + (utf8 (op :: ((y :: ys) ++ inner.chars) ++ cl :: aft)).length = Z.r + (utf8 aft).length := by
        have h1 : (utf8 (op :: ((y :: ys) ++ inner.chars) ++ cl :: aft)).length = (utf8 (op :: ((y :: ys) ++ inner.chars) ++ [cl])).length + (utf8 aft).length := by
          rw [← utf8_len_append]; simp
        rw [ezr, h1]; omega
      rw [hend] at hcl'
      rw [linked_append, ← List.singleton_append, linked_append]
      refine ⟨linked_noKids hk, ⟨trivial, t9.gap u1 trivial u3 e' D hcl', ?_⟩, ?_⟩
      · intro x _ x' hx' _ _ hkk
        by_cases haf : aft = []
        · have htl : otail = [] := by
            have h1 := t1
            rw [haf, (hgap haf).2] at h1
            change emit T o [] Z a2 (cur'.ctx :: st) = _ at h1
            rw [emit, if_neg hZi.2.1] at h1
            have h2 := t2.outline
            rw [show tail = [] by simpa using h1.symm] at h2
            cases h2
            rfl
          rw [htl] at hx'; cases hx'
        · obtain ⟨x'', w, e1, e2⟩ := t9.head haf
          rw [e1, List.head?_cons, Option.mem_def, Option.some.injEq] at hx'
          rw [← hx'] at hkk
          exact absurd e2 hkk
      · intro x hx x' hx' hxn _ _
        have := (hbytes u1 u3 hst).2
        rw [Option.mem_def] at hx
        rw [hx, Option.map_some, hxn] at this
        rw [List.singleton_append, List.head?_cons, Option.mem_def, Option.some.injEq] at hx'
        rw [← hx', hpos]
        exact u4.1 this.symm
    · intro hz
      obtain ⟨x, w, e, -⟩ := g4 hz
      exact ⟨x, _, by rw [e]; rfl, hk x (by rw [e]; simp)⟩

/-! ### The whole text -/

/-- The conditions on the classes, as far as they are needed for tiles. -/
theorem goodIn_of {T : Tables} {o : Options} (hT : KnownClasses T) {tile : Prop} : ∀ (i : Isolates) (nested : Bool), i.Good T o nested →
    Spec.NoIsolates (classes T o i.outer) → (tile → cAN ∉ classes T o i.chars) → GoodIn T o tile i nested := by
  have plain : ∀ (t u : List Char), Spec.NoIsolates (classes T o t) → (tile → cAN ∉ classes T o u) → (∀ c ∈ t, c ∈ u) →
      ∀ c ∈ t, PlainClass tile (charClass T o c) := by
    intro t u hn h3 hm c hc
    refine ⟨charClass_known hT o c, hn _ (List.mem_map_of_mem hc), fun ht he => h3 ht ?_⟩
    rw [← he]
    exact List.mem_map_of_mem (hm c hc)
  intro i
  induction i with
  | none => intro _ _ _ _; trivial
  | more op lead inner cl aft rest ihin ihrest =>
    intro nested hg hout h3
    obtain ⟨h1, h2, hl, hgap, hni, hbr, hnum, hq, hgi, hgr⟩ := hg
    have hch : (Isolates.more op lead inner cl aft rest).chars = op :: (lead ++ inner.chars) ++ cl :: (aft ++ rest.chars) := rfl
    have ho1 : Spec.NoIsolates (classes T o aft) := fun c hc => hout c (by
      show c ∈ classes T o (aft ++ rest.outer)
      rw [classes_append]; exact List.mem_append_left _ hc)
    have ho2 : Spec.NoIsolates (classes T o rest.outer) := fun c hc => hout c (by
      show c ∈ classes T o (aft ++ rest.outer)
      rw [classes_append]; exact List.mem_append_right _ hc)
    have hi2 : Spec.NoIsolates (classes T o inner.outer) := fun c hc => hni c (by
      rw [classes_append]; exact List.mem_append_right _ hc)
    refine ⟨h1, h2, hl, hgap, fun c hc => ⟨plain _ _ hni h3 ?_ c hc, ?_⟩, plain _ _ ho1 h3 ?_, hnum, fun hne => ⟨?_, ?_⟩,
      ihin true hgi hi2 (fun t hm => h3 t (classes_sub ?_ hm)), ihrest nested hgr ho2 (fun t hm => h3 t (classes_sub ?_ hm))⟩
    · intro c hc
      rw [List.mem_append] at hc
      rw [hch]
      rcases hc with hc | hc
      · simp [hc]
      · simp [outer_sub inner c hc]
    · have hm : charClass T o c ∈ classes T o (lead ++ inner.outer) := List.mem_map_of_mem hc
      exact ⟨fun e => hbr.1 (e ▸ hm), fun e => hbr.2 (e ▸ hm)⟩
    · intro c hc
      rw [hch]; simp [hc]
    · intro pre post e
      exact (hq hne pre post e).2
    · intro hm
      obtain ⟨p, q, e⟩ := List.append_of_mem hm
      exact (hq hne p q e).1
    · intro c hc
      rw [hch]; simp [hc]
    · intro c hc
      rw [hch]; simp [hc]

/-- A text with nested isolates is resolved. -/
theorem resolve_nested_raw {T : Tables} {o : Options} (hT : KnownClasses T) (ho : o.markup = none) (sched : Nat → Nat)
    {t lead : List Char} {is : Isolates} (tile : Prop)
    (ht : firstParagraph T o t = lead ++ is.chars) (h : NestedIsolates T o lead is)
    (h3 : tile → cAN ∉ classes T o (firstParagraph T o t) ∧ (classes T o (firstParagraph T o t)).head? ≠ some cNSM) :
    ∃ N p, resolveParagraph T o sched (utf8 t) N = .returns (levelsOf o p.stack, p) ∧
      Ended p.env.1 (scrapsOf T o (utf8 t)) ∧
      (tile → Tiles 0 (utf8 (firstParagraph T o t)).length p.stack ∧ is.RunsFor T o (utf8 lead).length (nestedRuns p.stack) ∧
        ∀ s ∈ p.stack, Within s ∧ Fine tile s) ∧ p.stack ≠ [] ∧ (∀ s ∈ p.stack, s.clz ≠ cEN) ∧ Unlike p.stack [] ∧
      (tile → RawFor T o is (utf8 lead).length (nestedRuns p.stack)) := by
  obtain ⟨fin, h1, h2, -⟩ := scanner_feeds ho (known_notNull hT) sched (utf8 t)
  have h3' : tile → cAN ∉ classes T o (lead ++ is.chars) := fun a => by rw [← ht]; exact (h3 a).1
  have hi : GoodIn T o tile is false := goodIn_of hT is false h.good (fun c hc => h.outer c (by rw [classes_append]; exact List.mem_append_right _ hc))
    (fun a hm => h3' a (by rw [classes_append]; exact List.mem_append_right _ hm))
  have hl : ∀ c ∈ lead, PlainClass tile (charClass T o c) := by
    intro c hc
    refine ⟨charClass_known hT o c, h.outer _ (List.mem_map_of_mem (List.mem_append_left _ hc)), fun a he => h3' a ?_⟩
    rw [← he]
    exact List.mem_map_of_mem (List.mem_append_left _ hc)
  have hq : QuietText (classes T o (lead ++ is.outer)) := h.numbersOutside
  have hr : Ready tile (initialOuterScrap o false) none (classes T o (lead ++ is.outer)) := by
    refine ⟨Or.inl rfl, ?_, (by decide : cNULL ≠ cAL), fun _ => ⟨Or.inl rfl, fun _ => rfl, quiet_numbers hq⟩, fun h => absurd rfl h⟩
    unfold initialOuterScrap Scrap.e
    dsimp only
    split <;> simp
  obtain ⟨os, -, -, e, -⟩ := emit_nest is false lead (initialOuterScrap o false) none [] hr (fun _ => ⟨fun _ => ⟨rfl, rfl⟩, hq⟩)
    (fun h => absurd rfl h) h.numbers hl hi rfl
  have hscr : emit T o ((lead ++ is.chars).map token) (initialOuterScrap o false) none [] = scrapsOf T o (utf8 t) := by
    rw [scrapsOf, paragraph_text, ht]
    rfl
  have hz : (initialOuterScrap o false).clz = cNULL := rfl
  have hr0 : (initialOuterScrap o false).r = 0 := rfl
  rw [hscr, if_pos hz, hr0, Nat.zero_add, Nat.zero_add, ← ht] at e
  have hfar : Far 0 (scrapsOf T o (utf8 t)) := by
    have := e.far 0 [] (by omega) ⟨trivial, fun _ => rfl, by omega⟩
    simpa using this
  have hs : Sound fin := sound_feeds (e := (newScanner o (utf8 t), 0)) (by
    intro x hx
    have : x = {} := by simpa [newScanner] using hx
    subst this
    exact ⟨by simp, by simp⟩) h1
  obtain ⟨N, p, e1, e2, e3, e4⟩ := resolve_outline_unlike (resting_brackets T o sched fin.pc) (o := o) h1 hfar e.outline
    (K := kidsOf os) ⟨⟨by simpa using e.fine, by simpa using e.num, fun a => by simpa using e.tiles a (fun _ => (h3 a).2), by simp⟩, rfl, by simpa using e.housed⟩
    ⟨⟨ended_atRest h2, by
      intro x hx p hp
      exact ⟨Or.inr ((hs x hx).2 p hp), trivial⟩⟩, rfl⟩
  obtain ⟨⟨g1, g2, g3⟩, g4, g5⟩ := e2
  rw [List.append_nil] at g1 g3 g4 g5 g2
  refine ⟨N, p, e1, ?_, fun a => ⟨g2 a, ?_, fun s hs => ⟨g5 a s hs, (g1 s hs).1⟩⟩, g3, fun s hs => (g1 s hs).2, e4, fun a => ?_⟩
  · unfold Ended at h2 ⊢
    rw [e3.2, h2]
  · have := e.runs a
    rw [← g4] at this
    exact this
  · have := e.raw a hT
    rw [← g4] at this
    exact this

theorem resolve_nested_unlike {T : Tables} {o : Options} (hT : KnownClasses T) (ho : o.markup = none) (sched : Nat → Nat)
    {t lead : List Char} {is : Isolates} (tile : Prop)
    (ht : firstParagraph T o t = lead ++ is.chars) (h : NestedIsolates T o lead is)
    (h3 : tile → cAN ∉ classes T o (firstParagraph T o t) ∧ (classes T o (firstParagraph T o t)).head? ≠ some cNSM) :
    ∃ N p, resolveParagraph T o sched (utf8 t) N = .returns (levelsOf o p.stack, p) ∧
      Ended p.env.1 (scrapsOf T o (utf8 t)) ∧
      (tile → Tiles 0 (utf8 (firstParagraph T o t)).length p.stack ∧ is.RunsFor T o (utf8 lead).length (nestedRuns p.stack) ∧
        ∀ s ∈ p.stack, Within s ∧ Fine tile s) ∧ p.stack ≠ [] ∧ (∀ s ∈ p.stack, s.clz ≠ cEN) ∧ Unlike p.stack [] := by
  obtain ⟨N, p, e1, e2, e3, e4, e5, e6, -⟩ := resolve_nested_raw hT ho sched tile ht h h3
  exact ⟨N, p, e1, e2, e3, e4, e5, e6⟩

theorem resolve_nested {T : Tables} {o : Options} (hT : KnownClasses T) (ho : o.markup = none) (sched : Nat → Nat)
    {t lead : List Char} {is : Isolates} (tile : Prop)
    (ht : firstParagraph T o t = lead ++ is.chars) (h : NestedIsolates T o lead is)
    (h3 : tile → cAN ∉ classes T o (firstParagraph T o t) ∧ (classes T o (firstParagraph T o t)).head? ≠ some cNSM) :
    ∃ N p, resolveParagraph T o sched (utf8 t) N = .returns (levelsOf o p.stack, p) ∧
      Ended p.env.1 (scrapsOf T o (utf8 t)) ∧
      (tile → Tiles 0 (utf8 (firstParagraph T o t)).length p.stack ∧ is.RunsFor T o (utf8 lead).length (nestedRuns p.stack) ∧
        ∀ s ∈ p.stack, Within s ∧ Fine tile s) ∧ p.stack ≠ [] := by
  obtain ⟨N, p, e1, e2, e3, e4, -⟩ := resolve_nested_unlike hT ho sched tile ht h h3
  exact ⟨N, p, e1, e2, e3, e4⟩

end Uax.Bidi
