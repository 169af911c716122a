import Verif.BidiTwinScan

/-
The scraps that the scanner makes of a text with isolates have a good outline.
-/
namespace Uax.Bidi

open Spec (Tiles NumbersLTR strongAfter)

theorem widthOf_append (a b : List (Nat × Nat)) : widthOf (a ++ b) = widthOf a + widthOf b := by simp [widthOf]

theorem widthOf_cons (x : Nat × Nat) (b : List (Nat × Nat)) : widthOf (x :: b) = x.2 + widthOf b := by simp [widthOf]

theorem classesIn_append (T : Tables) (o : Options) (a b : List (Nat × Nat)) : classesIn T o (a ++ b) = classesIn T o a ++ classesIn T o b := by
  simp [classesIn]

/-- The run of an isolate at a position has been made, by the two passes, of scraps which are those
of its text as a paragraph. -/
def OwnRun (T : Tables) (o : Options) (pos : Nat) (p : Piece) (run : List Scrap) : Prop :=
  ∃ (A Z : Scrap) (body ys zs : List Scrap), run = zs ++ [Z] ∧ A.clz = runeClass T o p.op.1 ∧ A.e = isoDir (runeClass T o p.op.1) ∧
    A.l = pos ∧ A.r = pos + p.op.2 ∧ Z.clz = cPDI ∧ Z.l = A.r + widthOf p.body ∧ Z.r = A.r + widthOf p.body + p.cl.2 ∧
    Red false (A :: body) 1 (A :: ys) ∧ (∀ x ∈ A :: ys, Inner x) ∧ Settles (A :: ys) zs ∧
    ((classesIn T o p.body).head? ≠ some cNSM → (ownScraps T o A.clz p.body).map (keyAt A.r) = body.map (keyAt 0))

def OwnRuns (T : Tables) (o : Options) : Nat → List Piece → List (List Scrap) → Prop
  | _, [], [] => True
  | pos, p :: ps, run :: runs => OwnRun T o pos p run ∧ OwnRuns T o (pos + widthOf p.all) ps runs
  | _, _, _ => False

/-- What the scraps of a text with isolates are like. -/
structure Outlined (tile : Prop) (start len : Nat) (first : Prop) (spans : List (Nat × Nat)) (own : List (List Scrap) → Prop) (ss os : List Scrap) : Prop where
  outline : Outline ss os
  room : Far 0 ss
  fine : ∀ s ∈ os, Fine tile s ∧ isIsolate s = false
  num : NumOk os
  tiles : tile → first → Tiles start len os
  housed : tile → ∀ s ∈ os, Housed s
  runs : tile → Runs spans (kidsOf os)
  own : own (kidsOf os)

/-- No Arabic letter before a European number. -/
def AlLast (cs : List Class) : Prop := ∀ pre post, cs = pre ++ cEN :: post → cAL ∉ pre

theorem alLast_append {pre cs : List Class} (h : AlLast (pre ++ cs)) : AlLast cs := by
  intro p q e hm
  exact h (pre ++ p) q (by rw [e, List.append_assoc]) (List.mem_append_right _ hm)

theorem alLast_mem {pre cs : List Class} (h : AlLast (pre ++ cs)) (hm : cAL ∈ pre) : cEN ∉ cs := by
  intro he
  obtain ⟨p, q, e⟩ := List.append_of_mem he
  exact h (pre ++ p) q (by rw [e, List.append_assoc]) (List.mem_append_left _ hm)

/-- The text of an isolate, from the initiator on, up to and with the PDI. -/
theorem emit_inner {T : Tables} {o : Options} {tile : Prop} {p : Piece} (hp : GoodPiece T o tile p) {A : Scrap} {a : Option Nat} {st : List DirContext}
    (rest : List (Nat × Nat)) (hA : A.clz = runeClass T o p.op.1) (hAe : A.e = isoDir A.clz) (hAal : a = none → A.ctx.isAL = false)
    (har : a ≠ none → cEN ∉ classesIn T o p.body) :
    ∃ (body : List Scrap) (Z : Scrap) (a' : Option Nat), emit T o (p.body ++ p.cl :: rest) A a st = A :: (body ++ emit T o rest Z a' st) ∧
      Z.clz = cPDI ∧ Z.l = A.r + widthOf p.body ∧ Z.r = A.r + widthOf p.body + p.cl.2 ∧ (a' = none → a = none ∧ Z.ctx.isAL = false) ∧
      (a' ≠ none → a ≠ none ∨ cAL ∈ classesIn T o p.body) ∧
      body ≠ [] ∧ Good1At tile A.r Z.l [] body ∧ (∀ s ∈ body, NoBracket s) ∧ NoKids Z ∧
      ((classesIn T o p.body).head? ≠ some cNSM → (ownScraps T o A.clz p.body).map (keyAt A.r) = body.map (keyAt 0)) := by
  have hae : A.e = cL ∨ A.e = cR := by rw [hAe]; unfold isoDir; split <;> simp
  have hA' : A.clz = cLRI ∨ A.clz = cRLI := by rw [hA]; exact hp.op
  have hAi : isIsolate A = true ∧ A.clz ≠ cPDI ∧ A.clz ≠ cNULL := by
    unfold isIsolate
    rcases hA' with h | h <;> rw [h] <;> decide
  have hbody := hp.body
  have hnum := hp.numbers
  rw [← hA] at hnum
  cases hb : p.body with
  | nil => exact absurd hb hp.some
  | cons y ys =>
    obtain ⟨r, n⟩ := y
    rw [hb] at hbody hnum har
    obtain ⟨⟨hc, hn⟩, hnb⟩ := hbody (r, n) (by simp)
    dsimp only at hc hn hnb
    have hys : ∀ x ∈ ys, PlainClass tile (runeClass T o x.1) ∧ 0 < x.2 := fun x hx => (hbody x (by simp [hx])).1
    have hyp : ∀ x ∈ ys, runeClass T o x.1 ∉ [cLRI, cRLI, cFSI, cPDI] := fun x hx => (hys x hx).1.2.1
    have hcs : classesIn T o ((r, n) :: ys) = runeClass T o r :: classesIn T o ys := rfl
    rw [hcs] at hnum har
    have hB := ready_open (n := n) hA' hae hAal hc hn hnum har
    have hla := next_plain (cur := A) n (Or.inr (Or.inr (hA'.imp id Or.inl))) hc.2.1
    have hbr : breaks A (runeClass T o r) = true := by
      unfold breaks
      rw [hAi.1]; simp
    have hsw : switchContext A st (nextScrap A (runeClass T o r) n) = (A, st) := by
      unfold switchContext
      rw [if_neg (by rw [hla]; simp), if_neg hAi.2.1]
    have e1 : emit T o ((r, n) :: ys ++ p.cl :: rest) A a st = A :: emit T o (ys ++ p.cl :: rest)
        (inheritStrongTypes (nextScrap A (runeClass T o r) n) A a) (if runeClass T o r = cAL then some A.r else a) st := by
      rw [List.cons_append, emit]
      dsimp only
      rw [if_pos hbr, hsw, if_neg hAi.2.2]
      rfl
    rw [e1]
    obtain ⟨j1, j2⟩ := inherit_lr (nextScrap A (runeClass T o r) n) A a
    have j3 := inherit_clz (nextScrap A (runeClass T o r) n) A a
    have j4 := inherit_noKids A (runeClass T o r) n A a
    have j5 : NoBracket (inheritStrongTypes (nextScrap A (runeClass T o r) n) A a) := by
      have hAb : NoBracket A := by
        unfold NoBracket isBracket
        rcases hA' with h | h <;> rw [h] <;> rfl
      have := next_noBracket hAb hnb
      unfold NoBracket isBracket at this ⊢
      rw [j3]
      exact this
    have hfc : rulesW1to3 (runeClass T o r) A ≠ cNULL := by
      have hal : runeClass T o r = cEN → A.ctx.isAL = false := by
        intro e
        cases a with
        | none => exact hAal rfl
        | some q => exact absurd (by rw [e]; simp) (har (by simp))
      have := (first_class (hA'.imp id Or.inl) hc hal).1
      intro e
      rw [e] at this
      exact absurd this (by decide)
    have j6 := fun hns => own_body (st := st) hA' hAe (fun e => by
      cases a with
      | none => exact hAal rfl
      | some q => exact absurd (by rw [e]; simp) (har (by simp))) hB hc hn hys hnum hns
    change _ = rulesW1to3 (runeClass T o r) A at j3
    change _ = A.r at j1
    change _ = A.r + n at j2
    generalize inheritStrongTypes (nextScrap A (runeClass T o r) n) A a = B at hB j1 j2 j3 j4 j5 j6 ⊢
    generalize ha1 : (if runeClass T o r = cAL then some A.r else a) = a1 at hB j6 ⊢
    -- the PDI
    have hBn : B.clz ≠ cNULL := by rw [j3]; exact hfc
    have hB' := after_ready (T := T) (o := o) [] ys B a1 (by rw [List.append_nil]; exact hB) hys
    have hBr := after_r (T := T) (o := o) ys B a1 hB.notIso hyp
    have hBa := after_AL (T := T) (o := o) ys B a1
    obtain ⟨g1, g2, g3, g4, g5⟩ := emit_good ys B a1 st hB hys
    obtain ⟨⟨r', n'⟩, hcl⟩ : ∃ x, x = p.cl := ⟨_, rfl⟩
    have hclc := hp.cl
    rw [← hcl] at hclc ⊢
    dsimp only at hclc
    have hbr' : breaks (after T o ys B a1).1 (runeClass T o r') = true := by
      have hni := hB'.notIso
      rw [hclc]
      unfold breaks
      have h1 : rulesW1to3 cPDI (after T o ys B a1).1 = cPDI := rfl
      rw [h1]
      have : (after T o ys B a1).1.clz ≠ cPDI := by
        intro e
        unfold isIsolate at hni
        rw [e] at hni
        cases hni
      simp [this]
    have hsplit := emit_split (T := T) (o := o) r' n' rest ys B a1 st hB.notIso hyp hbr'
    rw [hclc] at hsplit
    have hsw' : switchContext (after T o ys B a1).1 st (nextScrap (after T o ys B a1).1 cPDI n') = ((after T o ys B a1).1, st) := by
      unfold switchContext
      have h1 : (nextScrap (after T o ys B a1).1 cPDI n').clz = cPDI := rfl
      rw [if_neg (by rw [h1]; simp), if_neg]
      intro e
      have hni := hB'.notIso
      unfold isIsolate at hni
      rw [e] at hni
      cases hni
    rw [hsw', if_neg (by decide)] at hsplit
    obtain ⟨z1, z2, z3⟩ := close_scrap (cur := (after T o ys B a1).1) n' (after T o ys B a1).2 hB'.notAL hB'.notIso
    obtain ⟨z4, z5⟩ := inherit_lr (nextScrap (after T o ys B a1).1 cPDI n') (after T o ys B a1).1 (after T o ys B a1).2
    have z6 := inherit_noKids (after T o ys B a1).1 cPDI n' (after T o ys B a1).1 (after T o ys B a1).2
    dsimp only at hsplit
    have hw : widthOf ((r, n) :: ys) = n + widthOf ys := by simp [widthOf]
    have hZl : (inheritStrongTypes (nextScrap (after T o ys B a1).1 cPDI n') (after T o ys B a1).1 (after T o ys B a1).2).l = A.r + widthOf ((r, n) :: ys) := by
      rw [z4]
      show (after T o ys B a1).1.r = _
      rw [hBr, j2, hw, Nat.add_assoc]
    refine ⟨emit T o ys B a1 st, inheritStrongTypes (nextScrap (after T o ys B a1).1 cPDI n') (after T o ys B a1).1 (after T o ys B a1).2,
      (after T o ys B a1).2, by rw [hsplit], z2, hZl, ?_, ?_, ?_, ?_, ?_, ?_, z6, fun hh => j6 (fun e => hh (by rw [hcs, List.head?_cons, e]))⟩
    · rw [z5]
      show (after T o ys B a1).1.r + n' = _
      rw [hBr, j2, hw, Nat.add_assoc A.r]
    · intro h
      refine ⟨?_, ?_⟩
      · cases a with
        | none => rfl
        | some q =>
          exfalso
          have h1 : a1 ≠ none := by rw [← ha1]; split <;> simp
          have : ∀ (l : List (Nat × Nat)) (c : Scrap) (b : Option Nat), b ≠ none → (after T o l c b).2 ≠ none := by
            intro l
            induction l with
            | nil => intro c b hb; exact hb
            | cons x l ihl =>
              obtain ⟨r1, n1⟩ := x
              intro c b hb
              rw [after]
              split
              · refine ihl _ _ ?_
                split
                · simp
                · exact hb
              · exact ihl _ _ hb
          exact this ys B a1 h1 h
      · have := z3 h
        unfold DirContext.isAL
        rw [this]
        have hs := (hB'.latin h).1
        have : nextStrong (after T o ys B a1).1 ≠ cAL := by
          unfold nextStrong
          split
          · decide
          · split
            · decide
            · rcases hs with hs | hs <;> rw [hs] <;> decide
        simpa using this
    · intro h
      rcases hBa h with h' | h'
      · rw [← ha1] at h'
        split at h'
        · rename_i hh
          right
          rw [hcs, hh]; simp
        · exact Or.inl h'
      · right
        rw [hcs]
        exact List.mem_cons_of_mem _ h'
    · obtain ⟨x, xs, e, -⟩ := g4 hBn
      rw [e]; simp
    · refine ⟨by simpa using g1, by simpa using g2, fun ht => ?_, by simp⟩
      have := g5 ht (fun e => absurd e hBn)
      rw [if_neg hBn, j1, j2] at this
      rw [hZl, hw, ← Nat.add_assoc]
      simpa using this
    · exact emit_noBracket ys B a1 st j5 (fun x hx => (hbody x (by simp [hx])).2)

theorem emit_outline {T : Tables} {o : Options} {tile : Prop} : ∀ (ps : List Piece) (xs : List (Nat × Nat)) (cur : Scrap) (a : Option Nat) (st : List DirContext),
    Ready tile cur a (classesIn T o xs ++ outerOf T o ps) → Calm cur (classesIn T o xs ++ outerOf T o ps) → QuietText (classesIn T o xs ++ outerOf T o ps) →
    (a ≠ none → cEN ∉ classesIn T o (xs ++ ofPieces ps)) → AlLast (classesIn T o (xs ++ ofPieces ps)) →
    (∀ x ∈ xs, PlainClass tile (runeClass T o x.1) ∧ 0 < x.2) → (∀ p ∈ ps, GoodPiece T o tile p) → (∀ p ∈ ps.dropLast, p.rest ≠ []) → NoKids cur →
    ∃ os, (cur.clz ≠ cNULL → ∃ x w, emit T o (xs ++ ofPieces ps) cur a st = x :: w ∧ isIsolate x = false) ∧
      Outlined tile (if cur.clz = cNULL then cur.r else cur.l) (cur.r + widthOf (xs ++ ofPieces ps))
      (cur.clz = cNULL → (classesIn T o (xs ++ ofPieces ps)).head? ≠ some cNSM) (spansFrom (cur.r + widthOf xs) ps)
      (OwnRuns T o (cur.r + widthOf xs) ps) (emit T o (xs ++ ofPieces ps) cur a st) os := by
  intro ps
  induction ps with
  | nil =>
    intro xs cur a st hr _ _ _ _ hxs _ _ hnk
    have e1 : xs ++ ofPieces [] = xs := by simp [ofPieces]
    have e2 : classesIn T o xs ++ outerOf T o [] = classesIn T o xs := by simp [outerOf]
    rw [e2] at hr
    rw [e1]
    obtain ⟨g1, g2, -, g4, g5⟩ := emit_good xs cur a st hr hxs
    have hk := emit_noKids (T := T) (o := o) xs cur a st hnk
    refine ⟨emit T o xs cur a st, fun hz => ?_, ?_, ?_, g1, g2, g5, ?_, ?_, ?_⟩
    · obtain ⟨x, w, e, -⟩ := g4 hz
      exact ⟨x, w, e, (g1 x (by rw [e]; simp)).2⟩
    · have := outline_more (fun s hs => (g1 s hs).2) Outline.nil
      simpa using this
    · have := Far.append (d := 0) (l := emit T o xs cur a st) (t := []) (fun s hs => (g1 s hs).2) trivial
      simpa using this
    · intro _ s hs run hr
      rw [show s.children = [] from hk s hs] at hr; cases hr
    · intro _
      have : kidsOf (emit T o xs cur a st) = [] := by
        unfold kidsOf
        rw [List.flatMap_eq_nil_iff]
        exact hk
      rw [this]
      trivial
    · have : kidsOf (emit T o xs cur a st) = [] := by
        unfold kidsOf
        rw [List.flatMap_eq_nil_iff]
        exact hk
      rw [this]
      trivial
  | cons p ps ih =>
    intro xs cur a st hr hcalm hq har hal hxs hps hgap hnk
    have hp := hps p (by simp)
    have hxp : ∀ x ∈ xs, runeClass T o x.1 ∉ [cLRI, cRLI, cFSI, cPDI] := fun x hx => (hxs x hx).1.2.1
    have eout : outerOf T o (p :: ps) = classesIn T o p.rest ++ outerOf T o ps := by simp [outerOf]
    have eall : ofPieces (p :: ps) = p.op :: (p.body ++ p.cl :: (p.rest ++ ofPieces ps)) := by simp [ofPieces, Piece.all]
    -- the text before the isolate
    have g := emit_good xs cur a st hr.mono hxs
    obtain ⟨g1, g2, g3, g4, g5⟩ := g
    have hR := after_ready _ xs cur a hr hxs
    have hC := after_calm _ xs cur a hr hxs hq hcalm
    have hRr := after_r (T := T) (o := o) xs cur a hr.notIso hxp
    have hAL := after_AL (T := T) (o := o) xs cur a
    obtain ⟨⟨r, n⟩, hop⟩ : ∃ x, x = p.op := ⟨_, rfl⟩
    have hopc := hp.op
    have hopw := hp.opw
    rw [← hop] at hopc hopw
    dsimp only at hopc hopw
    have hbr : breaks (after T o xs cur a).1 (runeClass T o r) = true := by
      have hni := hR.notIso
      have h1 : rulesW1to3 (runeClass T o r) (after T o xs cur a).1 = runeClass T o r := (open_scrap (cur := (after T o xs cur a).1) n none hopc).1
      unfold breaks
      rw [h1]
      have : (after T o xs cur a).1.clz ≠ runeClass T o r := by
        intro e
        unfold isIsolate at hni
        rw [e] at hni
        rcases hopc with h | h <;> rw [h] at hni <;> cases hni
      simp [this]
    have hsplit := emit_split (T := T) (o := o) r n (p.body ++ p.cl :: (p.rest ++ ofPieces ps)) xs cur a st hr.notIso hxp hbr
    obtain ⟨o1, o2, o3⟩ := open_scrap (cur := (after T o xs cur a).1) n (after T o xs cur a).2 hopc
    have hsw : switchContext (after T o xs cur a).1 st (nextScrap (after T o xs cur a).1 (runeClass T o r) n) =
        ((after T o xs cur a).1, (after T o xs cur a).1.ctx :: st) := by
      unfold switchContext
      rw [if_pos]
      unfold isIsolate
      rw [o1]
      rcases hopc with h | h <;> rw [h] <;> decide
    rw [hsw, if_neg (by rcases hopc with h | h <;> rw [h] <;> decide)] at hsplit
    dsimp only at hsplit
    rw [eall, ← hop, hsplit]
    obtain ⟨o4, o5⟩ := inherit_lr (nextScrap (after T o xs cur a).1 (runeClass T o r) n) (after T o xs cur a).1 (after T o xs cur a).2
    have oal : (after T o xs cur a).2 = none →
        (inheritStrongTypes (nextScrap (after T o xs cur a).1 (runeClass T o r) n) (after T o xs cur a).1 (after T o xs cur a).2).ctx.isAL = false := by
      intro h
      have hs := (hR.latin h).1
      have he : (inheritStrongTypes (nextScrap (after T o xs cur a).1 (runeClass T o r) n) (after T o xs cur a).1 (after T o xs cur a).2).ctx.strong =
          (after T o xs cur a).1.ctx.strong := by
        unfold inheritStrongTypes
        rw [o1]
        rcases hopc with h | h <;> rw [h] <;> rfl
      unfold DirContext.isAL
      rw [he]
      rcases hs with hs | hs <;> rw [hs] <;> rfl
    change _ = (after T o xs cur a).1.r at o4
    change _ = (after T o xs cur a).1.r + n at o5
    generalize inheritStrongTypes (nextScrap (after T o xs cur a).1 (runeClass T o r) n) (after T o xs cur a).1 (after T o xs cur a).2 = A at o2 o3 o4 o5 oal ⊢
    generalize hcur' : (after T o xs cur a).1 = cur' at *
    generalize ha' : (after T o xs cur a).2 = a' at *
    -- no European numbers after Arabic letters
    have hfar : classesIn T o (xs ++ ofPieces (p :: ps)) = (classesIn T o xs ++ runeClass T o r :: classesIn T o p.body) ++
        (runeClass T o p.cl.1 :: (classesIn T o (p.rest ++ ofPieces ps))) := by
      rw [eall, ← hop]; simp [classesIn]
    have har' : a' ≠ none → cEN ∉ classesIn T o p.body ∧ cEN ∉ classesIn T o (p.rest ++ ofPieces ps) := by
      intro h
      have h1 : cEN ∉ classesIn T o (ofPieces (p :: ps)) := by
        rcases hAL h with h' | h'
        · have := har h'
          rw [classesIn_append] at this
          exact fun hm => this (List.mem_append_right _ hm)
        · rw [classesIn_append] at hal
          exact alLast_mem hal h'
      rw [eall] at h1
      simp only [classesIn, List.map_cons, List.map_append, List.mem_cons, List.mem_append, not_or] at h1 ⊢
      exact ⟨h1.2.1, h1.2.2.2.1, h1.2.2.2.2⟩
    obtain ⟨body, Z, a'', q1, q2, q3, q4, q5, q6, q7, q8, q9, q10, q11⟩ := emit_inner hp (A := A) (a := a') (st := cur'.ctx :: st) (p.rest ++ ofPieces ps)
      (by rw [o2, ← hop]) (by rw [o3, o2]) oal (fun h => (har' h).1)
    rw [q1]
    -- the text after the isolate
    have har'' : a'' ≠ none → cEN ∉ classesIn T o (p.rest ++ ofPieces ps) := by
      intro h
      rcases q6 h with h' | h'
      · exact (har' h').2
      · rw [hfar] at hal
        have := alLast_mem hal (List.mem_append_right _ (List.mem_cons_of_mem _ h'))
        exact fun hm => this (List.mem_cons_of_mem _ hm)
    have hal'' : AlLast (classesIn T o (p.rest ++ ofPieces ps)) := by
      rw [hfar] at hal
      exact alLast_append (pre := [runeClass T o p.cl.1]) (alLast_append hal)
    have hZi : isIsolate Z = true ∧ Z.clz ≠ cNULL ∧ opens Z = false := by
      unfold isIsolate opens
      rw [q2]; decide
    have htail : ∃ tail otail, emit T o (p.rest ++ ofPieces ps) Z a'' (cur'.ctx :: st) = Z :: tail ∧
        (tail = [] ∨ ∃ x w, tail = x :: w ∧ isIsolate x = false) ∧
        Outlined tile Z.r (Z.r + widthOf (p.rest ++ ofPieces ps)) True (spansFrom (Z.r + widthOf p.rest) ps) (OwnRuns T o (Z.r + widthOf p.rest) ps) tail otail := by
      cases hrest : p.rest with
      | nil =>
        have hps0 : ps = [] := by
          cases ps with
          | nil => rfl
          | cons q ps => exact absurd hrest (hgap p (by simp))
        subst hps0
        refine ⟨[], [], ?_, Or.inl rfl, ⟨.nil, trivial, by simp, trivial, fun _ _ => by simp [Tiles, widthOf, ofPieces], by simp, fun _ => trivial, trivial⟩⟩
        simp only [ofPieces, List.flatMap_nil, List.append_nil]
        rw [emit, if_neg hZi.2.1]
      | cons y ys =>
        obtain ⟨r2, n2⟩ := y
        rw [eout, hrest] at hR hC hq
        rw [hrest] at har'' hal''
        have hcs : classesIn T o ((r2, n2) :: ys) = runeClass T o r2 :: classesIn T o ys := rfl
        rw [hcs, List.cons_append] at hR hC hq
        have hq1 : QuietText (runeClass T o r2 :: (classesIn T o ys ++ outerOf T o ps)) := quiet_append hq
        obtain ⟨hc, hn⟩ := hp.rest (r2, n2) (by rw [hrest]; simp)
        dsimp only at hc hn
        have hsub : ∀ c ∈ runeClass T o r2 :: (classesIn T o ys ++ outerOf T o ps), c ∈ classesIn T o ((r2, n2) :: ys ++ ofPieces ps) := by
          intro c hc
          rw [List.mem_cons, List.mem_append] at hc
          rw [classesIn_append, hcs, List.mem_append, List.mem_cons]
          rcases hc with hc | hc | hc
          · exact Or.inl (Or.inl hc)
          · exact Or.inl (Or.inr hc)
          · right
            unfold outerOf at hc
            rw [List.mem_flatMap] at hc
            obtain ⟨q, hq, hcq⟩ := hc
            unfold classesIn ofPieces
            rw [List.mem_map]
            unfold classesIn at hcq
            rw [List.mem_map] at hcq
            obtain ⟨x, hx, rfl⟩ := hcq
            refine ⟨x, ?_, rfl⟩
            rw [List.mem_flatMap]
            exact ⟨q, hq, by unfold Piece.all; simp [hx]⟩
        obtain ⟨c1, c2⟩ := ready_close (tile := tile) (Z := Z) (d := cur'.ctx) (a := a'') (c := runeClass T o r2) (cs := classesIn T o ys ++ outerOf T o ps) (n := n2)
          q2 hR.emb (fun h => (q5 h).2) hc hn (fun h => (hR.latin (q5 h).1).1) (fun h => (hC h).1) hq1
          (fun h hm => har'' h (hsub _ hm))
        have hla := next_plain (cur := Z) n2 (Or.inr (Or.inr (Or.inr (Or.inr q2)))) hc.2.1
        have e1 : emit T o ((r2, n2) :: ys ++ ofPieces ps) Z a'' (cur'.ctx :: st) = Z :: emit T o (ys ++ ofPieces ps)
            (inheritStrongTypes (nextScrap Z (runeClass T o r2) n2) { Z with ctx := cur'.ctx } a'') (if runeClass T o r2 = cAL then some Z.r else a'') st := by
          rw [List.cons_append, emit]
          dsimp only
          have hb : breaks Z (runeClass T o r2) = true := by
            unfold breaks; rw [hZi.1]; simp
          have hsw2 : switchContext Z (cur'.ctx :: st) (nextScrap Z (runeClass T o r2) n2) = ({ Z with ctx := cur'.ctx }, st) := by
            unfold switchContext
            rw [if_neg (by rw [hla]; simp), if_pos q2]
          rw [if_pos hb, hsw2, if_neg hZi.2.1]
          rfl
        obtain ⟨j1, j2⟩ := inherit_lr (nextScrap Z (runeClass T o r2) n2) { Z with ctx := cur'.ctx } a''
        have j3 := inherit_clz (nextScrap Z (runeClass T o r2) n2) { Z with ctx := cur'.ctx } a''
        have j4 := inherit_noKids Z (runeClass T o r2) n2 { Z with ctx := cur'.ctx } a''
        have hfc : rulesW1to3 (runeClass T o r2) Z ≠ cNULL := by
          have hal : runeClass T o r2 = cEN → Z.ctx.isAL = false := by
            intro e
            cases ha : a'' with
            | none => exact (q5 ha).2
            | some q => exact absurd (hsub _ (by rw [e]; simp)) (har'' (by rw [ha]; simp))
          have := (first_class (Or.inr (Or.inr q2)) hc hal).1
          intro e
          rw [e] at this
          exact absurd this (by decide)
        change _ = rulesW1to3 (runeClass T o r2) Z at j3
        change _ = Z.r at j1
        change _ = Z.r + n2 at j2
        generalize inheritStrongTypes (nextScrap Z (runeClass T o r2) n2) { Z with ctx := cur'.ctx } a'' = C at c1 c2 e1 j1 j2 j3 j4
        have hCn : C.clz ≠ cNULL := by rw [j3]; exact hfc
        obtain ⟨otail, oh, ot⟩ := ih ys C (if runeClass T o r2 = cAL then some Z.r else a'') st c1 c2 (quiet_append (pre := [runeClass T o r2]) hq1)
          (by
            intro h hm
            by_cases hcal : runeClass T o r2 = cAL
            · have := alLast_mem (pre := [runeClass T o r2]) (cs := classesIn T o (ys ++ ofPieces ps)) hal'' (by rw [hcal]; simp)
              exact this hm
            · rw [if_neg hcal] at h
              exact har'' h (List.mem_cons_of_mem _ hm))
          (alLast_append (pre := [runeClass T o r2]) hal'') (fun x hx => hp.rest x (by rw [hrest]; simp [hx])) (fun q hq => hps q (by simp [hq]))
          (fun q hq => hgap q (by
            cases ps with
            | nil => simp at hq
            | cons y ys => rw [List.dropLast_cons_of_ne_nil (by simp)]; exact List.mem_cons_of_mem _ hq)) j4
        rw [if_neg hCn, j1, j2] at ot
        refine ⟨_, otail, e1, Or.inr (oh hCn), ?_⟩
        have w1 : Z.r + n2 + widthOf (ys ++ ofPieces ps) = Z.r + widthOf ((r2, n2) :: ys ++ ofPieces ps) := by
          rw [List.cons_append, widthOf_cons, Nat.add_assoc]
        have w2 : Z.r + n2 + widthOf ys = Z.r + widthOf ((r2, n2) :: ys) := by rw [widthOf_cons, Nat.add_assoc]
        rw [w1, w2] at ot
        exact ⟨ot.outline, ot.room, ot.fine, ot.num, fun ht _ => ot.tiles ht (fun e => absurd e hCn), ot.housed, ot.runs, ot.own⟩
    obtain ⟨tail, otail, t1, th, t2⟩ := htail
    rw [t1]
    -- the isolate
    have hAc : A.clz = cLRI ∨ A.clz = cRLI := by rw [o2]; exact hopc
    obtain ⟨ys, zs, k1, k2, k3, k4, k5⟩ := inner_run (by rw [o4, o5]; omega) hAc (by rw [o3]; unfold isoDir; split <;> simp) q8 q9
    have hAl : A.l ≤ Z.l := by rw [o4, q3, o5]; omega
    have hclw := hp.clw
    have hZl : Z.l < Z.r := by rw [q3, q4]; omega
    obtain ⟨f1, f2, f3, f4, f5⟩ := isoScrap_fine (tile := tile) (a := A) (z := Z) k4 hAl hZl k5
    have hkb : ∀ x ∈ body, isIsolate x = false ∧ x.clz < 28 := fun x hx => ⟨(q8.1 x (by simpa using hx)).2, (q8.1 x (by simpa using hx)).1.1⟩
    have hout : Outline (A :: (body ++ Z :: tail)) (isoScrap Z zs :: otail) := by
      refine .iso ?_ (hAc.imp id Or.inl) q2 q7 (even_plain fun x hx => (hkb x hx).1) k1 k2 k3 t2.outline
      intro x hx
      simp only [List.mem_cons, List.mem_append, List.not_mem_nil, or_false] at hx
      rcases hx with rfl | hx | rfl
      · rcases hAc with h | h <;> rw [h] <;> decide
      · exact (hkb x hx).2
      · rw [q2]; decide
    have hk := emit_noKids (T := T) (o := o) xs cur a st hnk
    have hlead : ¬ LeadsEN (isoScrap Z zs :: otail) := by
      rintro (h | ⟨h, -⟩)
      · exact absurd (show cNI = cEN from h) (by decide)
      · exact absurd (show cNI = cET from h) (by decide)
    have ekids : kidsOf (emit T o xs cur a st ++ isoScrap Z zs :: otail) = (zs ++ [Z]) :: kidsOf otail := by
      have : kidsOf (emit T o xs cur a st) = [] := by
        unfold kidsOf
        rw [List.flatMap_eq_nil_iff]
        exact hk
      unfold kidsOf at this ⊢
      rw [List.flatMap_append, this, List.flatMap_cons]
      rfl
    have e2 : cur.r + widthOf xs = A.l := by rw [o4, hRr]
    have e4 : A.l + widthOf p.all = Z.r + widthOf p.rest := by
      unfold Piece.all
      rw [q4, o5, o4, ← hop]
      simp only [widthOf_append, widthOf_cons]
      omega
    refine ⟨emit T o xs cur a st ++ isoScrap Z zs :: otail, fun hz => ?_, ?_, ?_, ?_, ?_, ?_, ?_, ?_, ?_⟩
    · obtain ⟨x, w, e, -⟩ := g4 hz
      exact ⟨x, _, by rw [e]; rfl, (g1 x (by rw [e]; simp)).2⟩
    · exact outline_more (fun s hs => (g1 s hs).2) hout
    · refine Far.append (fun s hs => (g1 s hs).2) (far_iso ?_ q2 q7 (fun h => h.append fun x hx => (hkb x hx).1) t2.room (Nat.zero_le _) (th.imp (fun h => ⟨rfl, h⟩) id))
      unfold opens
      rcases hAc with h | h <;> rw [h] <;> rfl
    · intro s hs
      rw [List.mem_append, List.mem_cons] at hs
      rcases hs with hs | rfl | hs
      · exact g1 s hs
      · exact ⟨f1, f2⟩
      · exact t2.fine s hs
    · exact numOk_append ⟨fun h => absurd h hlead, t2.num⟩ hlead _ g2
    · intro ht hfirst
      refine tiles_append.mpr ⟨A.l, ?_, f4 ht, ?_⟩
      · rw [o4, hRr]
        refine g5 ht ?_
        intro e h
        refine hfirst e ?_
        rw [classesIn_append]
        cases hx : classesIn T o xs with
        | nil => rw [hx] at h; cases h
        | cons c cs => rw [hx] at h; exact h
      · rw [f3]
        have := t2.tiles ht trivial
        have e : Z.r + widthOf (p.rest ++ ofPieces ps) = cur.r + widthOf (xs ++ (r, n) :: (p.body ++ p.cl :: (p.rest ++ ofPieces ps))) := by
          rw [q4, o5, hRr]
          simp only [widthOf_append, widthOf_cons]
          omega
        rw [← e]
        exact this
    · intro ht s hs
      rw [List.mem_append, List.mem_cons] at hs
      rcases hs with hs | rfl | hs
      · intro run hr
        rw [show s.children = [] from hk s hs] at hr; cases hr
      · intro run hr
        have : run = zs ++ [Z] := by simpa [isoScrap] using hr
        rw [this]
        exact ⟨A.l, Z.r, Nat.le_of_eq (f4 ht), Nat.le_of_eq f3.symm, f5 ht⟩
      · exact t2.housed ht s hs
    · intro ht
      rw [ekids, spansFrom]
      have e3 : A.l + widthOf p.inner = Z.r := by
        unfold Piece.inner
        rw [q4, o5, o4, ← hop]
        simp only [widthOf_append, widthOf_cons]
        simp only [widthOf, List.map_nil, List.sum_nil]
        omega
      rw [e2, e3, e4]
      exact ⟨f5 ht, t2.runs ht⟩
    · rw [ekids, e2]
      refine ⟨⟨A, Z, body, ys, zs, rfl, by rw [o2, ← hop], by rw [o3, ← hop], rfl, by rw [o5, o4, ← hop], q2, q3, q4, k1, k2, k3, q11⟩, ?_⟩
      rw [e4]
      exact t2.own

end Uax.Bidi
