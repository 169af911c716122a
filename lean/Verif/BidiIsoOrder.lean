import Verif.BidiIsoLevels
import Verif.BidiNestSeq

/-
Visual order of left-to-right texts with isolates: putting the parts together.
-/
namespace Uax.Bidi
open Spec

/-- An initiator after rule W1 has been one before. -/
theorem w1_initiator : ∀ (cs : List Class) (p : Class), p ∉ [cLRI, cRLI, cFSI] → ∀ (i : Nat) (y : Class), (w1 p cs)[i]? = some y → y ∈ [cLRI, cRLI, cFSI] → cs[i]? = some y := by
  intro cs
  induction cs with
  | nil => intro p _ i y h; simp [w1] at h
  | cons c cs ih =>
    intro p hp i y h hy
    rw [w1] at h
    have hstep : ∀ q : Class, (q = (if c = cNSM then (if p ∈ [cLRI, cRLI, cFSI, cPDI] then cON else p) else c)) → q ∈ [cLRI, cRLI, cFSI] → c = q := by
      intro q e hq
      by_cases hc : c = cNSM
      · rw [if_pos hc] at e
        split at e
        · subst e
          exact absurd hq (by decide)
        · rw [e] at hq
          exact absurd hq hp
      · rw [if_neg hc] at e
        exact e.symm
    cases i with
    | zero =>
      rw [List.getElem?_cons_zero, Option.some.injEq] at h
      rw [List.getElem?_cons_zero, hstep y h.symm hy]
    | succ i =>
      rw [List.getElem?_cons_succ] at h ⊢
      by_cases hq : (if c = cNSM then (if p ∈ [cLRI, cRLI, cFSI, cPDI] then cON else p) else c) ∈ [cLRI, cRLI, cFSI]
      · have hc := hstep _ rfl hq
        rw [← hc] at h hq
        cases cs with
        | nil => simp [w1] at h
        | cons d ds =>
          by_cases hd : d = cNSM
          · rw [w1] at h
            rw [if_pos hd] at h
            have hm : c ∈ [cLRI, cRLI, cFSI, cPDI] := by
              simp only [List.mem_cons, List.not_mem_nil, or_false] at hq ⊢
              rcases hq with k | k | k <;> simp [k]
            rw [if_pos hm] at h
            have h' : (w1 cON (d :: ds))[i]? = some y := by
              rw [w1]
              rw [if_pos hd, if_neg (by decide)]
              exact h
            exact ih cON (by decide) i y h' hy
          · have h' : (w1 cON (d :: ds))[i]? = some y := by
              rw [w1_same hd] at h ⊢
              exact h
            exact ih cON (by decide) i y h' hy
      · exact ih _ hq i y h hy

theorem settled_among {cs : List Class} (h : AmongL cs) : InitiatorsSettled cL cs := by
  intro i x y _ hy h1 _
  have hc := w1_initiator cs cL (by decide) (i + 1) y hy h1
  obtain ⟨hl, -⟩ := List.getElem?_eq_some_iff.mp hc
  exact (h (i + 1) y hc h1).2 (i + 1) (by omega) (by omega) hl

theorem amongAt_of {T : Tables} {o : Options} {cs : List Class} (hl : (resolved cL cs).length = cs.length) (h : AmongL cs) : ∀ (is : Isolates) (C : List Class), is.Good T o false →
    cs = C ++ seqClasses T o is → AmongAt T o (resolved cL cs) C.length is := by
  intro is
  induction is with
  | none => intros; trivial
  | more op lead inner cl aft rest _ ih =>
    intro C hg e
    obtain ⟨g1, -, -, -, -, -, -, -, -, g10⟩ := hg
    have e' : cs = (C ++ (charClass T o op :: charClass T o cl :: classes T o aft)) ++ seqClasses T o rest := by
      rw [e, seqClasses]
      simp
    have hcl : (classes T o aft).length = aft.length := by rw [classes, List.length_map]
    have hlen : cs.length = C.length + (2 + aft.length) + (seqClasses T o rest).length := by
      rw [e']
      simp only [List.length_append, List.length_cons, hcl]
      omega
    have hget : cs[C.length]? = some (charClass T o op) := by rw [e, List.getElem?_append_right (Nat.le_refl _), Nat.sub_self]; rfl
    obtain ⟨k1, k2⟩ := h C.length _ hget (by rcases g1 with h | h <;> rw [h] <;> decide)
    refine ⟨k1, fun hp => k2 _ (by omega) (by omega) (by omega), k2 _ (by omega) (by omega) (by omega), k2 _ (by omega) (by omega) (by omega),
      fun hp => k2 _ (by omega) (by omega) (by omega), ?_⟩
    have := ih _ g10 e'
    rw [show (C ++ (charClass T o op :: charClass T o cl :: classes T o aft)).length = C.length + (2 + aft.length) by
      simp only [List.length_append, List.length_cons, hcl]; omega] at this
    exact this

theorem charsAt_starts : ∀ (t : List Char) (pos : Nat), (charsAt pos t).map (·.2) = starts pos t
  | [], _ => rfl
  | c :: t, pos => by rw [charsAt, List.map_cons, charsAt_starts t]; rfl

theorem sequence_starts : ∀ (is : Isolates) (pos : Nat) (x : Char × Nat), x ∈ is.sequence pos → x.2 ∈ starts pos is.chars := by
  intro is
  induction is with
  | none => intro pos x h; cases h
  | more op lead inner cl aft rest _ ih =>
    intro pos x h
    have hc : (Isolates.more op lead inner cl aft rest).chars = (op :: (lead ++ inner.chars)) ++ ((cl :: aft) ++ rest.chars) := by
      rw [Isolates.chars]
      simp
    rw [hc, starts_append, starts_append]
    rw [Isolates.sequence, List.mem_cons, List.mem_cons, List.mem_append] at h
    have hl : ∀ a b : List Char, (utf8 (a ++ b)).length = (utf8 a).length + (utf8 b).length := by
      intro a b
      simp [utf8]
    rcases h with rfl | rfl | h | h
    · simp [starts]
    · simp [starts]
    · refine List.mem_append_right _ (List.mem_append_left _ ?_)
      rw [starts]
      refine List.mem_cons_of_mem _ ?_
      have := List.mem_map_of_mem (f := (·.2)) h
      rw [charsAt_starts, hl, ← Nat.add_assoc] at this
      exact this
    · refine List.mem_append_right _ (List.mem_append_right _ ?_)
      have := ih _ _ h
      rw [hl, ← Nat.add_assoc] at this
      exact this

theorem seq_length (T : Tables) (o : Options) : ∀ is : Isolates, (seqClasses T o is).length = (seqWidths is).length := by
  intro is
  induction is with
  | none => rfl
  | more op lead inner cl aft rest _ ih =>
    rw [seqClasses, seqWidths]
    simp only [List.length_cons, List.length_append, ih, classes, widthsOf, List.length_map]

theorem numbersApart_of : ∀ l : List Scrap, (∀ s ∈ l, s.clz ≠ cEN ∧ s.clz ≠ cAN) → NumbersApart l
  | [], _ => trivial
  | [_], _ => trivial
  | a :: b :: l, h => by
    refine ⟨?_, numbersApart_of (b :: l) fun s hs => h s (List.mem_cons_of_mem _ hs)⟩
    rintro ⟨k, -⟩
    have := h a (List.mem_cons_self ..)
    unfold levelInLtr at k
    rw [if_neg (by simp [this.1, this.2])] at k
    split at k <;> omega

/-- Isolates in a chain. -/
theorem chain_runs {W : List (Nat × Nat)} : ∀ (chs : List (List Scrap)) (a : Nat), Chain W a chs → ∀ ch ∈ chs, IsolateRun ch := by
  intro chs
  induction chs with
  | nil => intro a _ ch h; cases h
  | cons c more ih =>
    intro a h ch hch
    obtain ⟨first, mid, last, P, Q, rfl, h1, -, -, h4⟩ := h
    rw [List.mem_cons] at hch
    rcases hch with rfl | hch
    · obtain ⟨i1, i2, i3, i4, -, -, -, i8, -⟩ := h1
      refine ⟨first, mid, last, rfl, i1, i2, i3, i4, ?_, fun _ => numbersApart_of _ ?_⟩
      · intro s hs
        refine ⟨?_, (i8 s hs).2.2.1⟩
        rcases (i8 s hs).1 with h | h <;> rw [h] <;> decide
      · intro s hs
        rcases (i8 s hs).1 with h | h <;> rw [h] <;> decide
    · exact ih _ h4 ch hch

theorem linked_ne : ∀ l : List Scrap, (∀ s ∈ l, s.clz = cL ∨ s.clz = cR) → Linked Differ l → Linked (fun a b : Scrap => a.clz ≠ b.clz) l
  | [], _, _ => trivial
  | [_], _, _ => trivial
  | a :: b :: l, h, hl => by
    refine ⟨?_, linked_ne (b :: l) (fun s hs => h s (List.mem_cons_of_mem _ hs)) hl.2⟩
    intro e
    exact hl.1 ⟨e, h a (List.mem_cons_self ..)⟩

/-- Reordering of resolved levels with isolates. -/
theorem reorder_isolates {o : Options} (hL : o.outerR2L = false) {W : List (Nat × Nat)} (hst : (W.map (·.1)).Pairwise (· < ·)) (vis : Nat → Bool) {len : Nat} {ys : List Scrap}
    (ht : Tiles 0 len ys) (hy : ∀ y ∈ ys, OuterOk W len y ∧ MarksHidden vis y.children) (hr : ∀ ch ∈ nestedRuns ys, IsolateRun ch)
    (hp : ∀ s ∈ ys, s.clz = cL ∨ s.clz = cR) (hk : Linked (fun a b : Scrap => a.clz ≠ b.clz) ys) :
    ∃ runs, (levelsOf o (initialOuterScrap o true :: ys)).reorder = some runs ∧
      (shown (W.map (·.1)) .ltr runs).filter vis = (ys.flatMap (outerShown (W.map (·.1)))).filter vis := by
  obtain ⟨runs, h1, h2⟩ := outer_shown hst vis ys 0 [] ht hy hk (Or.inl rfl) (fun _ => rfl)
  refine ⟨runs, ?_, ?_⟩
  · have hic : (initialOuterScrap o true).clz = cLRI := by
      unfold initialOuterScrap
      rw [hL]
      rfl
    have hich : (initialOuterScrap o true).children = [] := by
      unfold initialOuterScrap
      rfl
    have hil : (initialOuterScrap o true).len = 0 := by
      unfold initialOuterScrap Scrap.len
      simp
    generalize hz : ({ l := ((initialOuterScrap o true :: ys).getLast?.getD {}).r, r := ((initialOuterScrap o true :: ys).getLast?.getD {}).r, clz := cPDI } : Scrap) = z
    have hz1 : z.clz = cPDI := by rw [← hz]
    have hz2 : z.children = [] := by rw [← hz]
    have hz3 : z.len = 0 := by rw [← hz]; unfold Scrap.len; simp
    have hdir : directionOf (initialOuterScrap o true) .ltr = .ltr := by
      unfold directionOf
      rw [hic]
      rfl
    have hlev : levelsOf o (initialOuterScrap o true :: ys) = ⟨.ltr, initialOuterScrap o true :: (ys ++ [z])⟩ := by
      unfold levelsOf
      rw [hz, hdir]
      rfl
    rw [hlev]
    generalize hi : initialOuterScrap o true = i at hic hich hil hdir
    have hcls : ∀ s ∈ i :: (ys ++ [z]), s.clz ≠ cNULL ∧ s.clz ≠ cEN ∧ s.clz ≠ cAN := by
      intro s hs
      simp only [List.mem_cons, List.mem_append, List.not_mem_nil, or_false] at hs
      rcases hs with rfl | hs | rfl
      · rw [hic]; decide
      · rcases hp s hs with h | h <;> rw [h] <;> decide
      · rw [hz1]; decide
    have hmap : (i :: (ys ++ [z])).map (fun s : Scrap => { s with children := s.children.map (listedIsolate .ltr) }) = i :: (ys.map listedIn ++ [z]) := by
      rw [List.map_cons, List.map_append, List.map_singleton]
      have e : ∀ s : Scrap, s.children = [] → ({ s with children := s.children.map (listedIsolate .ltr) } : Scrap) = s := by
        rintro ⟨c, l, r, x, ch⟩ h
        simp only at h
        subst h
        rfl
      rw [e i hich, e z hz2]
      rfl
    have hre : Bidi.reorder .ltr (i :: (ys ++ [z])) = some (i :: (ys.map listedIn ++ [z])) := by
      rw [C47_isolates_partial .ltr _ (fun s hs => (hcls s hs).1) ?_ fun _ => numbersApart_of _ fun s hs => (hcls s hs).2, hmap]
      · have hcls' : ∀ s ∈ i :: (ys.map listedIn ++ [z]), s.clz ≠ cNULL ∧ s.clz ≠ cEN ∧ s.clz ≠ cAN := by
          intro s hs
          rw [← hmap] at hs
          obtain ⟨s', hs', rfl⟩ := List.mem_map.mp hs
          exact hcls s' hs'
        show some (leftToRight .ltr _) = _
        unfold leftToRight
        rw [if_pos rfl, ← flat_ltr _ (fun s hs => (hcls' s hs).1) (numbersApart_of _ fun s hs => (hcls' s hs).2), reorderFlat_same .ltr hcls']
        have hlk : ∀ l : List Scrap, Linked (fun a b : Scrap => a.clz ≠ b.clz) l → Linked Differ (l.map listedIn ++ [z]) := by
          intro l
          induction l with
          | nil => intro _; trivial
          | cons a l ih =>
            intro hl
            cases l with
            | nil =>
              refine ⟨?_, trivial⟩
              rintro ⟨e, k | k⟩
              · rw [e, hz1] at k; exact absurd k (by decide)
              · rw [e, hz1] at k; exact absurd k (by decide)
            | cons b l =>
              refine ⟨?_, ih hl.2⟩
              rintro ⟨e, -⟩
              exact hl.1 e
        have := hlk ys hk
        cases hq : ys.map listedIn ++ [z] with
        | nil => trivial
        | cons q qs =>
          rw [hq] at this
          refine ⟨?_, this⟩
          rintro ⟨-, k | k⟩ <;> rw [hic] at k <;> exact absurd k (by decide)
      · intro s hs ch hch
        simp only [List.mem_cons, List.mem_append, List.not_mem_nil, or_false] at hs
        rcases hs with rfl | hs | rfl
        · rw [hich] at hch; cases hch
        · exact hr ch (List.mem_flatMap.mpr ⟨s, hs, hch⟩)
        · rw [hz2] at hch; cases hch
    unfold Levels.reorder
    dsimp only
    rw [hre, Option.bind_some]
    unfold flatten
    have hemb : (if isIsolate i then directionOf i .ltr else .ltr) = Dir.ltr := by rw [hdir]; simp
    dsimp only
    rw [hemb]
    have hstep : ∀ (s : Scrap) (rest : List Scrap) (runs : List VRun), s.children = [] → s.len = 0 → flattenLoop .ltr (s :: rest) runs = flattenLoop .ltr rest runs := by
      rintro ⟨c, l, r, x, ch⟩ rest runs hc hl
      simp only at hc
      subst hc
      rw [flattenLoop, if_pos rfl, extend_none hl]
    rw [hstep i _ _ hich hil, h1, hstep z _ _ hz2 hz3, flattenLoop]
  · have e : (shown (W.map (·.1)) .ltr runs).filter vis = sh (W.map (·.1)) vis runs := by
      unfold shown sh
      rw [if_pos rfl]
    rw [e, h2]
    rfl

/-- Resolving and reordering a left-to-right text with isolates show its visible characters in the order of rule L2. -/
theorem isolates_order {T : Tables} {o : Options} (hT : KnownClasses T) (ho : o.markup = none) (hL : o.outerR2L = false) (sched : Nat → Nat)
    {t lead : List Char} {is : Isolates} (ht : firstParagraph T o t = lead ++ is.chars) (h : NestedIsolates T o lead is) (hdep : is.depth ≤ 1)
    (hs : SimpleClasses (classes T o (lead ++ is.outer))) (hsim : is.Simple T o) (h3 : cAN ∉ classes T o (firstParagraph T o t))
    (h4 : (classes T o (firstParagraph T o t)).head? ≠ some cNSM) (h5 : AmongL (classes T o ((outerSequence lead is).map (·.1)))) :
    ∃ rl runs, Resolves T o sched (utf8 t) rl ∧ rl.reorder = some runs ∧
      (shown (starts 0 (firstParagraph T o t)) .ltr runs).filter (visible T o (firstParagraph T o t)) =
        (visualOrder ((starts 0 (firstParagraph T o t)).zip (textLevels T o lead is))).filter (visible T o (firstParagraph T o t)) := by
  rw [outerSequence_classes] at h5
  obtain ⟨N, p, ys, e1, e2, e3, e4, e5⟩ := resolve_outside hT ho hL sched ht h hs h3 h4 (settled_among h5)
  obtain ⟨N', p', f1, -, f2, -, -, f3, f4⟩ := resolve_nested_raw hT ho sched True ht h (fun _ => ⟨h3, h4⟩)
  have hpp : p' = p := by
    have k1 := Run.le_returns (resolveIn_le _ o _ (Nat.le_max_left N N')) e1
    have k2 := Run.le_returns (resolveIn_le _ o _ (Nat.le_max_right N N')) f1
    exact (Prod.mk.inj (Run.returns.inj (k2.symm.trans k1))).2
  subst hpp
  obtain ⟨-, f5, f6⟩ := f2 trivial
  have f4 := f4 trivial
  have hnr : nestedRuns p'.stack = nestedRuns ys := by
    rw [e2]
    rfl
  rw [hnr] at f5 f4
  have hw : ∀ s ∈ ys, Within s := fun s hs => (f6 s (by rw [e2]; exact List.mem_cons_of_mem _ hs)).1
  have hk : Linked (fun a b : Scrap => a.clz ≠ b.clz) ys := by
    refine linked_ne ys (fun s hs => (e4 s hs).1) ?_
    have : Linked Differ p'.stack := unlike_left f3
    rw [e2] at this
    cases ys with
    | nil => trivial
    | cons y ys => exact this.2
  have hlh : (classes T o lead).head? ≠ some cNSM := by
    rw [ht, classes_append] at h4
    cases hlead : classes T o lead with
    | nil => simp
    | cons c cs => rw [hlead] at h4; exact h4
  have hlen : (widthsOf lead ++ seqWidths is).length = (resolved cL (classes T o lead ++ seqClasses T o is)).length := by
    rw [(seq_resolved h.good hs h.numbersOutside hlh).2.1, n12_length, List.length_map, seq_lengths T o]
  have hcw : (widthsOf lead ++ seqWidths is).length = (classes T o lead ++ seqClasses T o is).length := by
    simp only [List.length_append, seq_length, classes, widthsOf, List.length_map]
  have ham := amongAt_of (T := T) (o := o) (hlen.symm.trans hcw) h5 is (classes T o lead) h.good rfl
  generalize hR : resolved cL (classes T o lead ++ seqClasses T o is) = R at hlen ham e5
  have hcl : (classes T o lead).length = lead.length := by rw [classes, List.length_map]
  have hwl : (widthsOf lead).length = lead.length := by rw [widthsOf, List.length_map]
  have htx : textLevels T o lead is = (R.take lead.length).map (Spec.level cL) ++ is.levels T o 0 ((R.drop lead.length).map (Spec.level cL)) := by
    have hseq : sequenceLevels 0 (classes T o lead ++ seqClasses T o is) = R.map (Spec.level cL) := by
      unfold sequenceLevels
      rw [if_pos rfl, hR]
      refine List.map_congr_left fun c _ => ?_
      simp
    unfold textLevels
    rw [outerSequence_classes, hseq]
    dsimp only
    rw [← List.map_take, ← List.map_drop]
  have hRl : lead.length ≤ R.length := by rw [← hlen, List.length_append, hwl]; omega
  have htl : ((R.take lead.length).map (Spec.level cL)).length = lead.length := by rw [List.length_map, List.length_take]; omega
  have hW : (starts 0 (lead ++ is.chars)).zip (textLevels T o lead is) =
      (starts 0 lead).zip ((R.take lead.length).map (Spec.level cL)) ++ (starts (utf8 lead).length is.chars).zip (is.levels T o 0 ((R.drop (widthsOf lead).length).map (Spec.level cL))) := by
    rw [htx, starts_append, List.zip_append (by rw [starts_length, htl]), Nat.zero_add, hwl]
  rw [ht]
  generalize hWd : (starts 0 (lead ++ is.chars)).zip (textLevels T o lead is) = W at hW
  obtain ⟨c1, c2, c3, c4⟩ := placed (t := lead ++ is.chars) (R := R) (D := byteClasses ys) (W := W) is _ (widthsOf lead) (charsAt 0 lead) _ _ h.good hdep hsim f5 f4
    (widthsOf_sum lead).symm (fun w hw => seq_widths_pos lead is w (List.mem_append_left _ hw)) hlen.symm e5 (by rw [hwl, ← hcl]; exact ham) hW
    (by
      intro x hx
      obtain ⟨j, j1, -⟩ := mem_zip_get _ _ hx
      have := (starts_sorted lead 0).2 _ (List.mem_of_getElem? j1)
      omega)
    (by rw [charsAt_append, Nat.zero_add])
  have hfst : W.map (·.1) = starts 0 (lead ++ is.chars) := by
    rw [← hWd, List.map_fst_zip]
    rw [starts_length, htx, List.length_append, List.length_append, htl, ← hwl, c3]
    exact Nat.le_refl _
  have hsort := starts_sorted (lead ++ is.chars) 0
  have hDl : (byteClasses ys).length = (utf8 (lead ++ is.chars)).length := by
    have := bytes_tiles ys _ _ e3 (fun s hs => Nat.le_of_lt (e4 s hs).2)
    rw [ht] at this
    omega
  rw [ht] at e3
  -- levels outside of isolates
  have hlead : ∀ x ∈ (starts 0 lead).zip ((R.take lead.length).map (Spec.level cL)), x.2 ≤ 3 ∧ ∃ c, (byteClasses ys)[x.1]? = some c ∧ x.2 = Spec.level cL c := by
    intro x hx
    obtain ⟨j, j1, j2⟩ := mem_zip_get _ _ hx
    obtain ⟨k1, k2⟩ := starts_get _ _ _ _ j1
    rw [List.getElem?_map, Option.map_eq_some_iff] at j2
    obtain ⟨c, j2, j3⟩ := j2
    rw [List.getElem?_take, if_pos k2] at j2
    refine ⟨by rw [← j3]; have := level_le c; omega, c, ?_, j3.symm⟩
    have hw : (widthsOf lead)[j]? = some ((widthsOf lead)[j]'(by omega)) := List.getElem?_eq_getElem _
    have hwp := seq_widths_pos lead is _ (List.mem_append_left _ (List.mem_of_getElem? hw))
    have := widen_get _ R j _ 0 hlen (by rw [List.getElem?_append_left (by omega)]; exact hw) hwp
    rw [List.take_append_of_le_length (by omega), ← e5, j2] at this
    rw [← this, k1]
    congr 1
    omega
  have hall : ∀ x ∈ W, x.2 ≤ 3 ∧ ((∃ c, (byteClasses ys)[x.1]? = some c ∧ x.2 = Spec.level cL c) ∨ ∃ ch ∈ nestedRuns ys, InIso ch x.1) := by
    intro x hx
    rw [hW, List.mem_append] at hx
    rcases hx with hx | hx
    · exact ⟨(hlead x hx).1, Or.inl (hlead x hx).2⟩
    · exact c4 x hx
  have hok : ∀ y ∈ ys, OuterOk W (utf8 (lead ++ is.chars)).length y := by
    refine outer_ok e3 e4 hk hw (chain_weaken c1 (Nat.zero_le _)) (fun ch hch => by rw [← hDl]; exact (c2 ch hch).1) (fun x hx => (hall x hx).2) ?_
    intro q hq hedge
    rw [e5] at hedge
    obtain ⟨i, i1, i2⟩ := widen_edge _ _ q hlen (seq_widths_pos lead is) (by rw [← e5, hDl]; exact hq) hedge
    have hol : (outerSequence lead is).length = (widthsOf lead ++ seqWidths is).length := by
      rw [hcw, ← outerSequence_classes, classes, List.length_map, List.length_map]
    obtain ⟨⟨c, q'⟩, hi⟩ : ∃ x, (outerSequence lead is)[i]? = some x := ⟨_, List.getElem?_eq_getElem (by omega)⟩
    obtain ⟨-, hpos⟩ := outerSequence_get hi
    have hmem := List.mem_of_getElem? hi
    have hin : q ∈ starts 0 (lead ++ is.chars) := by
      rw [i2, ← hpos, starts_append]
      rw [outerSequence, List.mem_append] at hmem
      rw [List.mem_append, Nat.zero_add]
      rcases hmem with hmem | hmem
      · refine Or.inl ?_
        rw [← charsAt_starts]
        exact List.mem_map_of_mem (f := (·.2)) hmem
      · exact Or.inr (sequence_starts _ _ _ hmem)
    rw [← hfst, List.mem_map] at hin
    obtain ⟨x, hx, hxq⟩ := hin
    exact ⟨x, hx, hxq⟩
  have hhid : ∀ y ∈ ys, MarksHidden (visible T o (lead ++ is.chars)) y.children := by
    intro y hy ch hch
    exact (c2 ch (List.mem_flatMap.mpr ⟨y, hy, hch⟩)).2 ch (List.mem_singleton.mpr rfl)
  obtain ⟨runs, r1, r2⟩ := reorder_isolates hL (W := W) (by rw [hfst]; exact hsort.1) (visible T o (lead ++ is.chars)) e3 (fun y hy => ⟨hok y hy, hhid y hy⟩)
    (chain_runs _ _ c1) (fun s hs => (e4 s hs).1) hk
  refine ⟨_, runs, resolves_of e1, by rw [e2]; exact r1, ?_⟩
  rw [hfst] at r2
  rw [r2, visualOrder_three W (fun x hx => (hall x hx).1), ← hfst]
  congr 1
  have hpw : W.Pairwise fun a b => a.1 < b.1 := by
    have := hsort.1
    rw [← hfst, List.pairwise_map] at this
    exact this
  rw [← from_outer hpw ys 0 e3 hok hk]
  congr 2
  unfold inW
  rw [List.filter_eq_self]
  intro x hx
  have : x.1 ∈ starts 0 (lead ++ is.chars) := by rw [← hfst]; exact List.mem_map_of_mem hx
  have := hsort.2 _ this
  simp
  omega

end Uax.Bidi
