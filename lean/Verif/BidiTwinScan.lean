import Verif.BidiTwin
import Verif.BidiDirections
import Verif.SpecIsolates

/-
The scanner makes the same scraps of a text inside an isolate as of a text of its
own, apart from the positions; and the parser the same runs.
-/
namespace Uax.Bidi

open Spec (NumbersLTR ownOptions)

theorem rules_twin {tile : Prop} {cur cur' : Scrap} {a a' : Option Nat} {c : Class} {cs : List Class} (h : Ready tile cur a (c :: cs))
    (h' : Ready tile cur' a' (c :: cs)) (hk : cur.clz = cur'.clz) : rulesW1to3 c cur = rulesW1to3 c cur' := by
  have al : ∀ {cur : Scrap} {a : Option Nat}, Ready tile cur a (c :: cs) → c = cEN → cur.ctx.isAL = false := by
    intro cur a h he
    cases ha : a with
    | none =>
      have := (h.latin ha).1
      unfold DirContext.isAL
      rcases this with e | e <;> rw [e] <;> rfl
    | some p => exact absurd (by rw [he]; simp) (h.arabic (by rw [ha]; simp)).1
  unfold rulesW1to3
  rw [hk]
  by_cases hn : c = cNSM
  · rw [if_pos hn, if_pos hn]
  · rw [if_neg hn, if_neg hn]
    by_cases he : c = cEN
    · rw [if_pos he, if_pos he, al h he, al h' he]
    · rw [if_neg he, if_neg he]

theorem emit_twin {T : Tables} {o : Options} {tile : Prop} {d : Nat} : ∀ (inp : List (Nat × Nat)) (cur cur' : Scrap) (a a' : Option Nat) (st st' : List DirContext),
    Ready tile cur a (classesIn T o inp) → Ready tile cur' a' (classesIn T o inp) → (∀ x ∈ inp, PlainClass tile (runeClass T o x.1) ∧ 0 < x.2) →
    keyAt d cur = keyAt 0 cur' → (emit T o inp cur a st).map (keyAt d) = (emit T o inp cur' a' st').map (keyAt 0) := by
  intro inp
  induction inp with
  | nil =>
    intro cur cur' a a' st st' _ _ _ hk
    have hc : cur.clz = cur'.clz := congrArg Prod.fst hk
    rw [emit, emit, hc]
    split
    · rfl
    · rw [List.map_cons, List.map_cons, hk]; rfl
  | cons x inp ih =>
    obtain ⟨r, n⟩ := x
    intro cur cur' a a' st st' h h' hin hk
    obtain ⟨hp, hn⟩ := hin (r, n) (by simp)
    dsimp only at hp hn
    have hin' : ∀ x ∈ inp, PlainClass tile (runeClass T o x.1) ∧ 0 < x.2 := fun x hx => hin x (by simp [hx])
    change Ready tile cur a (runeClass T o r :: classesIn T o inp) at h
    change Ready tile cur' a' (runeClass T o r :: classesIn T o inp) at h'
    have hc : cur.clz = cur'.clz := congrArg Prod.fst hk
    have hru := rules_twin h h' hc
    have hbr : breaks cur (runeClass T o r) = breaks cur' (runeClass T o r) := by
      unfold breaks isBracket isIsolate
      rw [hru, hc]
    have hk2 := hk
    simp only [keyAt, Prod.mk.injEq] at hk2
    have hla := next_plain (cur := cur) n (Or.inl h.notIso) hp.2.1
    have hla' := next_plain (cur := cur') n (Or.inl h'.notIso) hp.2.1
    rw [emit, emit]
    dsimp only
    rw [← hbr]
    by_cases hb : breaks cur (runeClass T o r) = true
    · rw [if_pos hb, if_pos hb, switch_plain h.notIso hla, switch_plain h'.notIso hla', ← hc]
      dsimp only
      obtain ⟨i1, i2, i3, -⟩ := inherit_eq (nextScrap cur (runeClass T o r) n) cur a hla h.notIso h.notAL
      obtain ⟨i1', i2', i3', -⟩ := inherit_eq (nextScrap cur' (runeClass T o r) n) cur' a' hla' h'.notIso h'.notAL
      have := ih _ _ _ _ st st' (ready_break h hp hn) (ready_break h' hp hn) hin' (by
        unfold keyAt
        rw [inherit_clz, inherit_clz, i1, i2, i3, i1', i2', i3']
        simp only [nextScrap, Prod.mk.injEq]
        refine ⟨hru, by omega, by omega, hk2.2.2.2⟩)
      by_cases hz : cur.clz = cNULL
      · rw [if_pos hz, if_pos hz]; exact this
      · rw [if_neg hz, if_neg hz, List.map_cons, List.map_cons, hk]
        exact congrArg _ this
    · rw [if_neg hb, if_neg (by simpa using hb)]
      refine ih _ _ _ _ st st' (ready_join h (by simpa using hb)) (ready_join h' (by rw [← hbr]; simpa using hb)) hin' ?_
      simp only [keyAt, collapse, nextScrap, Scrap.e, Prod.mk.injEq]
      exact ⟨hc, by omega, by omega, hk2.2.2.2⟩

/-- The scraps of a text of its own. -/
def ownScraps (T : Tables) (o : Options) (c : Class) (body : List (Nat × Nat)) : List Scrap :=
  emit T o body (initialOuterScrap (ownOptions o c) false) none []

/-- The text in an isolate after its first character. -/
theorem own_body {T : Tables} {o : Options} {tile : Prop} {A : Scrap} {a : Option Nat} {r n : Nat} {ys : List (Nat × Nat)} {st : List DirContext}
    (hA : A.clz = cLRI ∨ A.clz = cRLI) (hAe : A.e = isoDir A.clz) (hAal : runeClass T o r = cEN → A.ctx.isAL = false)
    (hB : Ready tile (inheritStrongTypes (nextScrap A (runeClass T o r) n) A a) (if runeClass T o r = cAL then some A.r else a) (classesIn T o ys))
    (hc : PlainClass tile (runeClass T o r)) (hn : 0 < n) (hys : ∀ x ∈ ys, PlainClass tile (runeClass T o x.1) ∧ 0 < x.2)
    (hnum : NumbersLTR (isoDir A.clz) (runeClass T o r :: classesIn T o ys)) (hns : runeClass T o r ≠ cNSM) :
    (ownScraps T o A.clz ((r, n) :: ys)).map (keyAt A.r) =
      (emit T o ys (inheritStrongTypes (nextScrap A (runeClass T o r) n) A a) (if runeClass T o r = cAL then some A.r else a) st).map (keyAt 0) := by
  have hR : Ready tile (initialOuterScrap (ownOptions o A.clz) false) none (runeClass T o r :: classesIn T o ys) := by
    refine ⟨Or.inl rfl, ?_, (by decide : cNULL ≠ cAL), fun _ => ⟨Or.inl rfl, fun _ => rfl, ?_⟩, fun h => absurd rfl h⟩
    · unfold initialOuterScrap Scrap.e
      dsimp only
      split <;> simp
    · exact numbersLTR_left hnum
  have hla := next_plain (cur := initialOuterScrap (ownOptions o A.clz) false) n (Or.inl rfl) hc.2.1
  unfold ownScraps
  rw [emit]
  dsimp only
  have hz : (initialOuterScrap (ownOptions o A.clz) false).clz = cNULL := rfl
  rw [if_pos (by unfold breaks; rw [hz]; rfl), if_pos hz, switch_plain rfl hla]
  dsimp only
  refine emit_twin ys _ _ _ _ [] st (ready_break hR hc hn) hB hys ?_
  obtain ⟨i1, i2, i3, -⟩ := inherit_eq (nextScrap (initialOuterScrap (ownOptions o A.clz) false) (runeClass T o r) n)
    (initialOuterScrap (ownOptions o A.clz) false) none hla rfl (by show cNULL ≠ cAL; decide)
  obtain ⟨j1, j2⟩ := inherit_lr (nextScrap A (runeClass T o r) n) A a
  have j3 : (inheritStrongTypes (nextScrap A (runeClass T o r) n) A a).e = A.e := by
    have hlA := next_plain (cur := A) n (Or.inr (Or.inl hns)) hc.2.1
    simp only [isIsolate, Bool.or_eq_false_iff, beq_eq_false_iff_ne] at hlA
    unfold inheritStrongTypes
    rw [if_neg hlA.1.1.1, if_neg hlA.1.1.2]
    have hs : ∀ (x : DirContext) (c : Class) (p : Nat), (x.setStrongType c p).embeddingDir = x.embeddingDir := by
      intro x c p
      unfold DirContext.setStrongType
      repeat' split
      all_goals rfl
    unfold Scrap.e
    dsimp only
    repeat' split
    all_goals simp only [hs]
  have hru : rulesW1to3 (runeClass T o r) (initialOuterScrap (ownOptions o A.clz) false) = rulesW1to3 (runeClass T o r) A := by
    unfold rulesW1to3
    rw [if_neg hns, if_neg hns]
    by_cases he : runeClass T o r = cEN
    · rw [if_pos he, if_pos he, hAal he]
      rfl
    · rw [if_neg he, if_neg he]
  unfold keyAt
  rw [inherit_clz, inherit_clz, i1, i2, i3, j1, j2, j3, hAe]
  simp only [nextScrap, Prod.mk.injEq]
  refine ⟨hru, ?_, ?_, ?_⟩
  · show 0 + A.r = _; omega
  · show 0 + n + A.r = _; omega
  · rcases hA with h | h <;> rw [h] <;> rfl

/-- A run without isolates and brackets is resolved like the scraps given. -/
theorem whole_red {σ : Type} {E : Env σ} {o : Options} {env env' : σ} {ss ys zs : List Scrap} (hf : Feeds E env ss env')
    (hni : ∀ x ∈ ss, isIsolate x = false)
    (h1 : Red false (initialOuterScrap o true :: ss) 1 (initialOuterScrap o true :: ys)) (hi : ∀ x ∈ initialOuterScrap o true :: ys, Inner x)
    (h2 : Settles (initialOuterScrap o true :: ys) zs) :
    ∃ N p rs qs, resolveIn E o env N = .returns (levelsOf o p.stack, p) ∧ p.stack = initialOuterScrap o true :: rs ∧ zs = initialOuterScrap o true :: qs ∧
      qs.map (keyAt 0) = rs.map (keyAt 0) := by
  obtain ⟨k, p1, r1, r2, r3, r4, r5, r6⟩ := read_three (E := E) (env' := env') (rest := ss)
    (p := { stack := [initialOuterScrap o true], sp := 1, eof := false, depth := 1, env := env }) (Or.inl ⟨rfl, hf⟩) rfl
  have hop : ∀ x ∈ ss, opens x = false := fun x hx => opens_not (hni x hx)
  have hah : ahead ss = 0 := by
    have := ahead_append hop []
    simpa [ahead] using this
  obtain ⟨N1, p2, a1, a2, a3, a4, a5⟩ := pass1_red (E := E) (env' := env') h1 p1 (ss.drop 3) none (by
      rw [r2]; show [_] ++ ss.take 3 ++ ss.drop 3 = _; rw [List.append_assoc, List.take_append_drop]; rfl)
    r4 (Nat.le_refl _) (by rw [r2]; simp) r3 (by rw [r5]; exact Nat.le_refl _) (by simp)
    (by
      intro s hs
      simp only [List.head?_cons, Option.mem_def, Option.some.injEq] at hs
      subst hs
      exact (initial_fine False o).1.2.2.1)
    (by
      have := Far.append (d := 0) (l := ss) (t := []) hni trivial
      simpa using this)
    (by show ahead ss ≤ _; omega)
    (fun _ => hah)
  obtain ⟨N2, q, s1, s2, s3⟩ := h2
  have hia : isIsolate (initialOuterScrap o true) = true := by
    unfold isIsolate initialOuterScrap
    cases o.outerR2L <;> rfl
  obtain ⟨p3, qs, rs, b1, b2, b3, b4, b5, b6, b7⟩ := pass2_twin (E := E) (d := 0) (a := initialOuterScrap o true) (a' := initialOuterScrap o true) hia
    (hi _ (by simp)) rfl rfl N2 { stack := initialOuterScrap o true :: ys, sp := 0, eof := true, depth := 0, env := () } q { p2 with sp := 0 } ys ys rfl a2 rfl
    (Nat.zero_le _) (fun x hx => hi x (by simp [hx])) rfl s1
  rw [s2] at b2
  have hd : p3.depth = 1 := by rw [b6]; show p2.depth = 1; rw [a5, r5]
  refine ⟨max N1 N2 + 1, { p3 with depth := p3.depth - 1 }, rs, qs, ?_, b3, b2, b4⟩
  have e1 := Run.le_returns (pass1_more E (Nat.le_max_left N1 N2) p1 false none) a1
  have e2 := Run.le_returns (pass2_more E (Nat.le_max_right N1 N2) { p2 with sp := 0 }) b1
  unfold resolveIn
  dsimp only
  rw [parseIRS]
  dsimp only
  rw [r1, Run.andThen_returns]
  dsimp only
  have hd2 : p2.depth = 1 := by rw [a5, r5]
  rw [if_pos rfl, e1, Run.andThen_returns]
  dsimp only
  rw [if_pos (Or.inr hd2), e2, Run.andThen_returns]
  rw [if_neg (by simp), Run.andThen_returns]
  dsimp only
  rw [List.drop_zero]
  cases hl : p3.stack.getLast? with
  | none => rw [b3] at hl; exact absurd (List.getLast?_eq_none_iff.mp hl) (by simp)
  | some last => simp only [levelsOf, hl, Option.getD_some]

/-- The run of an isolate is that of its text as a paragraph, moved. -/
theorem own_run {σ : Type} {E : Env σ} {o : Options} {env env' : σ} {ss body ys zs : List Scrap} {A : Scrap} (hf : Feeds E env ss env')
    (hA : A.clz = (initialOuterScrap o true).clz) (hAe : A.e = (initialOuterScrap o true).e) {len : Nat} (hg : Good1At False 0 len [] ss)
    (hbr : ∀ s ∈ ss, NoBracket s) (hk : ss.map (keyAt A.r) = body.map (keyAt 0))
    (h1 : Red false (A :: body) 1 (A :: ys)) (hi : ∀ x ∈ A :: ys, Inner x) (h2 : Settles (A :: ys) zs) :
    ∃ N p rs ws, resolveIn E o env N = .returns (levelsOf o p.stack, p) ∧ p.stack = initialOuterScrap o true :: rs ∧ zs = A :: ws ∧
      rs.map (keyAt A.r) = ws.map (keyAt 0) := by
  have hia : isIsolate (initialOuterScrap o true) = true := by
    unfold isIsolate initialOuterScrap
    cases o.outerR2L <;> rfl
  have hic : (initialOuterScrap o true).clz = cLRI ∨ (initialOuterScrap o true).clz = cRLI := by
    unfold initialOuterScrap
    cases o.outerR2L <;> simp
  have hie : (initialOuterScrap o true).e = cL ∨ (initialOuterScrap o true).e = cR := by
    unfold initialOuterScrap Scrap.e
    cases o.outerR2L <;> simp
  obtain ⟨ys0, zs0, k1, k2, k3, -, -⟩ := inner_run (tile := False) (a := initialOuterScrap o true) (z := { l := len }) (Nat.le_refl _) hic hie
    (by exact hg) hbr
  obtain ⟨N, p, rs, qs, e1, e2, e3, e4⟩ := whole_red (E := E) hf (fun x hx => (hg.1 x (by simpa using hx)).2) k1 k2 k3
  obtain ⟨y0, y1, f1, f2, f3⟩ := red_twin (d := A.r) (a := initialOuterScrap o true) (a' := A) k1 rfl ss body (A :: ys) 0 rfl rfl h1 hk
  injection f1 with _ f1
  injection f2 with _ f2
  subst f1; subst f2
  obtain ⟨N0, q0, t1, t2, t3⟩ := k3
  obtain ⟨N1, q1, u1, u2, u3⟩ := h2
  obtain ⟨p1, vs, ws, g1, g2, g3, g4, -⟩ := pass2_twin (E := dead) (d := A.r) (a := initialOuterScrap o true) (a' := A) hia (k2 _ (by simp)) hA hAe N0
    { stack := initialOuterScrap o true :: ys0, sp := 0, eof := true, depth := 0, env := () } q0
    { stack := A :: ys, sp := 0, eof := true, depth := 0, env := () } ys0 ys rfl rfl rfl (Nat.zero_le _) (fun x hx => k2 x (by simp [hx])) f3 t1
  have hp1 : p1 = q1 := by
    have a1 := Run.le_returns (pass2_more dead (Nat.le_max_left N0 N1) { stack := A :: ys, sp := 0, eof := true, depth := 0, env := () }) g1
    have a2 := Run.le_returns (pass2_more dead (Nat.le_max_right N0 N1) { stack := A :: ys, sp := 0, eof := true, depth := 0, env := () }) u1
    rw [a1] at a2
    injection a2
  rw [t2, e3] at g2
  injection g2 with _ g2
  subst g2
  refine ⟨N, p, rs, ws, e1, e2, by rw [← u2, ← hp1]; exact g3, ?_⟩
  rw [← g4]
  have : ∀ (d : Nat) (l l' : List Scrap), l.map (keyAt 0) = l'.map (keyAt 0) → l.map (keyAt d) = l'.map (keyAt d) := by
    intro d l l' h
    have := congrArg (List.map fun k : Class × Nat × Nat × Class => (k.1, k.2.1 + d, k.2.2.1 + d, k.2.2.2)) h
    rw [List.map_map, List.map_map] at this
    exact this
  exact (this _ _ _ e4).symm

end Uax.Bidi
