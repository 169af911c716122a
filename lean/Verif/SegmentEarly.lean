import Verif.SegmentSteady
import Verif.SegmentReuse

/-! Connect the fates of atoms with the specification `placesEarly`. -/

namespace Uax
namespace Seg

variable {β : Type} (B : Breaker β) (ok : Atom → Bool)

/-- An atom after `n + 1` more verdicts. -/
def atomAt (rem : List Verdict) (d : Nat) (a : Atom) (n : Nat) : Atom :=
  ⟨a.r, a.p0 + fut0 (rem.take (n + 1)) d, a.p1 + fut1 (rem.take (n + 1)) d⟩

def ripeAt (rem : List Verdict) (d n : Nat) : Bool := (rem[n]?.map fun v => decide (v.lam ≤ ((d + n : Nat) : Int))).getD false

theorem atomAt_zero (v : Verdict) (rem : List Verdict) (d : Nat) (a : Atom) : atomAt (v :: rem) d a 0 = bump1 v d a := by
  simp [atomAt, bump1, fut0_cons, fut1_cons]
  simp [fut0, fut1]

theorem atomAt_succ (v : Verdict) (rem : List Verdict) (d : Nat) (a : Atom) (n : Nat) :
    atomAt (v :: rem) d a (n + 1) = atomAt rem (d + 1) (bump1 v d a) n := by
  simp [atomAt, bump1, fut0_cons, fut1_cons, Int.add_assoc]

theorem ripeAt_zero (v : Verdict) (rem : List Verdict) (d : Nat) : ripeAt (v :: rem) d 0 = decide (v.lam ≤ (d : Int)) := by
  simp [ripeAt]

theorem ripeAt_succ (v : Verdict) (rem : List Verdict) (d n : Nat) : ripeAt (v :: rem) d (n + 1) = ripeAt rem (d + 1) n := by
  unfold ripeAt
  rw [List.getElem?_cons_succ, show d + (n + 1) = d + 1 + n by omega]

/-- First time the atom is feasible and settled. -/
def timeOf (rem : List Verdict) (d : Nat) (a : Atom) : Option Nat :=
  (List.range rem.length).find? fun n => ripeAt rem d n && ok (atomAt rem d a n)

theorem fate_timeOf : ∀ (rem : List Verdict) (d : Nat) (a : Atom),
    match timeOf ok rem d a with
    | some n => fate ok rem d a = (atomAt rem d a n, true)
    | none => (fate ok rem d a).2 = false := by
  intro rem
  induction rem with
  | nil => intro d a; simp [timeOf, fate]
  | cons v rem ih =>
    intro d a
    have := ih (d + 1) (bump1 v d a)
    unfold timeOf at this ⊢
    rw [List.length_cons, List.range_succ_eq_map, List.find?_cons, List.find?_map]
    simp only [fate, ripeAt_zero, atomAt_zero, Function.comp_def, ripeAt_succ, atomAt_succ, Nat.succ_eq_add_one]
    rw [Bool.and_comm]
    cases hc : (ok (bump1 v d a) && decide (v.lam ≤ (d : Int))) with
    | true =>
      simp only [if_true]
      rw [atomAt_zero]
    | false =>
      simp only [Bool.false_eq_true, if_false]
      cases hf : (List.range rem.length).find? (fun n => ripeAt rem (d + 1) n && ok (atomAt rem (d + 1) (bump1 v d a) n)) with
      | none => rw [hf] at this; simpa using this
      | some n =>
        rw [hf] at this
        simp only [Option.map_some]
        rw [atomAt_succ]
        exact this

theorem dead_of : ∀ (rem : List Verdict) (d : Nat) (a : Atom), (∀ m, m < rem.length → ok (atomAt rem d a m) = false) →
    Dead ok rem d a := by
  intro rem
  induction rem with
  | nil => intro d a _; trivial
  | cons v rem ih =>
    intro d a h
    refine ⟨by rw [← atomAt_zero v rem]; exact h 0 (by simp), ih _ _ fun m hm => ?_⟩
    rw [← atomAt_succ]
    exact h (m + 1) (by simp; omega)

theorem steadyA_of : ∀ (rem : List Verdict) (d : Nat) (a : Atom),
    (∀ n m, 0 < d + n → ripeAt rem d n = true → ok (atomAt rem d a n) = false → n ≤ m → m < rem.length → ok (atomAt rem d a m) = false) →
    SteadyA ok rem d a := by
  intro rem
  induction rem with
  | nil => intro d a _; trivial
  | cons v rem ih =>
    intro d a h
    refine ⟨fun h0 h1 h2 => dead_of ok _ _ _ fun m hm => ?_, ih _ _ fun n m h0 h1 h2 h3 h4 => ?_⟩
    · rw [← atomAt_succ]
      exact h 0 (m + 1) (by omega) (by rw [ripeAt_zero]; simpa using h1) (by rw [atomAt_zero]; exact h2) (by omega) (by simp; omega)
    · rw [← atomAt_succ]
      exact h (n + 1) (m + 1) (by omega) (by rw [ripeAt_succ]; exact h1) (by rw [atomAt_succ]; exact h2) (by omega) (by simp; omega)

theorem iok_of : ∀ (inc : List Atom) (rem : List Verdict),
    (∀ i a, inc[i]? = some a → SteadyA ok (rem.drop i) 0 a) → IOK ok inc rem := by
  intro inc
  induction inc with
  | nil => intro rem _; simp [IOK]
  | cons a inc ih =>
    intro rem h
    cases rem with
    | nil => simp [IOK]
    | cons v rem => exact ⟨h 0 a rfl, ih rem fun i b hb => h (i + 1) b (by simpa using hb)⟩

theorem im_get : ∀ (inc : List Atom) (rem : List Verdict) (i : Nat), inc.length = rem.length →
    (im ok inc rem)[i]? = inc[i]?.map fun a => fate ok (rem.drop i) 0 a := by
  intro inc
  induction inc with
  | nil => intro rem i _; simp [im]
  | cons a inc ih =>
    intro rem i h
    cases rem with
    | nil => simp at h
    | cons v rem =>
      cases i with
      | zero => simp [im]
      | succ i =>
        simp only [im, List.getElem?_cons_succ, List.drop_succ_cons]
        exact ih rem i (by simpa using h)

inductive All2 {α : Type} (R : α → α → Prop) : List α → List α → Prop
  | nil : All2 R [] []
  | cons {a b : α} {l l' : List α} : R a b → All2 R l l' → All2 R (a :: l) (b :: l')

/-- Two marked lists with the same runes, marks, and penalties at the marks give the same segments. -/
def SameM (x y : Atom × Bool) : Prop := x.1.r = y.1.r ∧ x.2 = y.2 ∧ (x.2 = true → x.1 = y.1)

theorem pf_same : ∀ (l l' : List (Atom × Bool)) (acc acc' : List Atom), All2 SameM l l' →
    acc.map (·.r) = acc'.map (·.r) → (pf acc l).map sg = (pf acc' l').map sg := by
  intro l
  induction l with
  | nil => intro l' acc acc' h _; cases h; rfl
  | cons x l ih =>
    intro l' acc acc' h ha
    cases h with
    | cons hs ht =>
      rename_i y l''
      obtain ⟨a, m⟩ := x
      obtain ⟨b, m'⟩ := y
      obtain ⟨s1, s2, s3⟩ := hs
      simp only at s1 s2 s3
      subst s2
      simp only [pf]
      cases m with
      | false => exact ih _ _ _ ht (by simp [ha, s1])
      | true =>
        have := s3 rfl
        subst this
        simp only [if_true, List.map_cons, sg_snoc, ha]
        rw [ih _ [] [] ht rfl]

theorem forall₂_get {α : Type} {R : α → α → Prop} : ∀ (l l' : List α), l.length = l'.length →
    (∀ (i : Nat) a b, l[i]? = some a → l'[i]? = some b → R a b) → All2 R l l' := by
  intro l
  induction l with
  | nil => intro l' h _; cases l' with
    | nil => exact .nil
    | cons => simp at h
  | cons a l ih =>
    intro l' h hR
    cases l' with
    | nil => simp at h
    | cons b l' => exact .cons (hR 0 a b rfl rfl) (ih l' (by simpa using h) fun i a b ha hb => hR (i + 1) a b (by simpa using ha) (by simpa using hb))

theorem soFar0_eq (vs : List Verdict) (i n : Nat) : soFar0 vs i n = fut0 ((vs.drop i).take (n + 1)) 0 := by
  unfold soFar0 fut0 c0; simp only [Nat.zero_add]

theorem soFar1_eq (vs : List Verdict) (i n : Nat) : soFar1 vs i n = fut1 ((vs.drop i).take (n + 1)) 0 := by
  unfold soFar1 fut1 c1; simp only [Nat.zero_add]

theorem ripe_eq (vs : List Verdict) (i n : Nat) : ripe vs i n = ripeAt (vs.drop i) 0 n := by
  unfold ripe ripeAt; rw [List.getElem?_drop]; simp only [Nat.zero_add]

theorem atoms_get (text : List Int) (i : Nat) : (atomsOf text none)[i]? =
    (text ++ [0])[i]?.map fun r => (⟨r, base text.length i, base text.length i⟩ : Atom) := by
  unfold atomsOf base
  rcases Nat.lt_trichotomy i text.length with h | h | h
  · rw [List.getElem?_append_left (by simpa using h), List.getElem?_append_left h, if_neg (by omega)]
    simp
  · subst h
    rw [List.getElem?_append_right (by simp), List.getElem?_append_right (by simp)]
    simp [eotAtom]
  · rw [List.getElem?_eq_none (by simp; omega), List.getElem?_eq_none (by simp; omega)]
    rfl

theorem ok_eq (T : Tester) (a : Atom) : feasible T.z0 T.z1 T.many a = T.ok a.p0 a.p1 := by
  rw [Bool.eq_iff_iff]
  simp only [feasible, Tester.ok, Bool.or_eq_true, Bool.and_eq_true, possible_iff, decide_eq_true_eq]

theorem okAt_eq (T : Tester) (vs : List Verdict) (e i n : Nat) (r : Int) :
    feasible T.z0 T.z1 T.many (atomAt (vs.drop i) 0 ⟨r, base e i, base e i⟩ n) = okAt T vs e i n := by
  rw [ok_eq, okAt, soFar0_eq, soFar1_eq]; rfl

/-- The closed form of the segments to come. -/
theorem batch_early (bs : List β) (z0 z1 : Bool) (text : List Int)
    (hs : Steady ⟨z0, z1, decide (1 < bs.length)⟩ (verdicts B bs (text ++ [0])) text.length) :
    (batch B (feasible z0 z1 (decide (bs.length > 1))) (atomsOf text none) bs [] 0).map sg =
      segmentsOf (placesEarly B bs z0 z1 text) := by
  have hm : (atomsOf text none).map (·.r) = text ++ [0] := by
    simp [atomsOf, List.map_map, Function.comp_def, eotAtom]
  generalize hT : (⟨z0, z1, decide (1 < bs.length)⟩ : Tester) = T at hs
  have hok : feasible z0 z1 (decide (bs.length > 1)) = feasible T.z0 T.z1 T.many := by rw [← hT]
  rw [hok, batch_sg B _ (atomsOf text none) bs [] 0 trivial, hm]
  · simp only [qm, List.nil_append]
    have h2 : (segmentsOf (placesEarly B bs z0 z1 text)) = (pf [] ((placesEarly B bs z0 z1 text).map ofPlace)).map sg := by
      have := pf_pieces (placesEarly B bs z0 z1 text) []
      simp only [List.map_nil] at this
      rw [this, segmentsOf, List.map_map]
      apply List.map_congr_left
      intro seg _
      simp [sg, ofPlace, List.map_map, Function.comp_def, List.getLast?_map, Option.map_map]
    rw [h2]
    apply pf_same _ _ _ _ _ rfl
    have hil : (im (feasible T.z0 T.z1 T.many) (atomsOf text none) (verdicts B bs (text ++ [0]))).length = text.length + 1 := by
      have hlen : ∀ (inc : List Atom) (rem : List Verdict), inc.length = rem.length →
          (im (feasible T.z0 T.z1 T.many) inc rem).length = inc.length := by
        intro inc
        induction inc with
        | nil => intro rem _; simp [im]
        | cons a inc ih =>
          intro rem h
          cases rem with
          | nil => simp at h
          | cons v rem => simp only [im, List.length_cons]; rw [ih rem (by simpa using h)]
      rw [hlen _ _ (by simp [atomsOf, verdicts_length])]
      simp [atomsOf]
    apply forall₂_get
    · rw [hil]; simp [placesEarly]
    · intro i a b ha hb
      rw [im_get _ _ _ _ (by simp [atomsOf, verdicts_length]), atoms_get] at ha
      simp only [placesEarly, List.getElem?_map, List.getElem?_mapIdx, hT] at hb
      cases hr : (text ++ [0])[i]? with
      | none => rw [hr] at ha; cases ha
      | some r =>
        rw [hr] at ha hb
        simp only [Option.map_some, Option.some.injEq] at ha hb
        have ht := fate_timeOf (feasible T.z0 T.z1 T.many) ((verdicts B bs (text ++ [0])).drop i) 0 ⟨r, base text.length i, base text.length i⟩
        have hr' := fate_r (feasible T.z0 T.z1 T.many) ((verdicts B bs (text ++ [0])).drop i) 0 ⟨r, base text.length i, base text.length i⟩
        have e : timeOf (feasible T.z0 T.z1 T.many) ((verdicts B bs (text ++ [0])).drop i) 0 ⟨r, base text.length i, base text.length i⟩ =
            cutTime T (verdicts B bs (text ++ [0])) text.length i := by
          unfold timeOf cutTime
          rw [List.length_drop]
          congr 1
          funext n
          rw [ripe_eq, okAt_eq]
        rw [e] at ht
        subst ha
        cases hc : cutTime T (verdicts B bs (text ++ [0])) text.length i with
        | none =>
          rw [hc] at ht hb
          simp only at ht hb
          subst hb
          exact ⟨hr', ht, fun h => by rw [ht] at h; cases h⟩
        | some n =>
          rw [hc] at ht hb
          simp only at ht hb
          subst hb
          rw [ht]
          refine ⟨rfl, rfl, fun _ => ?_⟩
          simp only [atomAt, ofPlace, soFar0_eq, soFar1_eq]
  · rw [hm]
    apply iok_of
    intro i a ha
    rw [atoms_get] at ha
    cases hr : (text ++ [0])[i]? with
    | none => rw [hr] at ha; cases ha
    | some r =>
      rw [hr] at ha
      simp only [Option.map_some, Option.some.injEq] at ha
      subst ha
      apply steadyA_of
      intro n m h0 h1 h2 h3 h4
      rw [okAt_eq] at h2 ⊢
      rw [List.length_drop] at h4
      exact hs i n m (by omega) (by rw [ripe_eq]; exact h1) h2 h3 (by omega)

theorem placesEarly_length (bs : List β) (z0 z1 : Bool) (text : List Int) :
    (placesEarly B bs z0 z1 text).length = text.length + 1 := by
  simp [placesEarly]

theorem placesEarly_runes (bs : List β) (z0 z1 : Bool) (text : List Int) :
    (placesEarly B bs z0 z1 text).map (·.r) = text ++ [0] := by
  apply List.ext_getElem?
  intro i
  rw [List.getElem?_map]
  simp only [placesEarly]
  rw [List.getElem?_mapIdx, Option.map_map]
  refine (Option.map_congr fun r _ => ?_).trans Option.map_id'
  simp only [Function.comp]
  split <;> rfl

theorem segmentsOf_length (l : List Place) : (segmentsOf l).length ≤ l.length := by
  obtain ⟨rest, h1, h2, h3, h4⟩ := pieces_split Place.cut l [] (by simp)
  simpa [segmentsOf] using h4

theorem segmentsOf_flatten (l : List Place) :
    ((segmentsOf l).map (·.runes)).flatten = (pieces Place.cut [] l).flatten.map (·.r) := by
  unfold segmentsOf
  rw [List.map_map, List.map_flatten]; rfl

/-- Collecting from a reader: the segments are those decided as early as possible. -/
theorem collect_reader_early {s : Seg β} (hr : Reachable B s) (src : List (Int × Nat)) (n : Nat)
    (hs : Steady ⟨s.zero0, s.zero1, decide (1 < s.brk.length)⟩ (verdicts B s.brk (src.map (·.1) ++ [0])) src.length)
    (hn : src.length + 1 < n) :
    (s.initReader src none).collect B n =
      some ((segmentsOf (placesEarly B s.brk s.zero0 s.zero1 (src.map (·.1)))).map fun seg => ⟨seg.runes.take s.room, seg.pens⟩, true) := by
  have hi := reachable_inv B hr
  obtain ⟨w, f, b1, b2, b3, b4, _, _, _⟩ := initReader_facts B hi src none
  rw [collect_out B n _ w f b1 b2 b3, initReader_todo B hi, b4]
  have := batch_early B s.brk s.zero0 s.zero1 (src.map (·.1)) (by rw [List.length_map]; exact hs)
  rw [show s.test = feasible s.zero0 s.zero1 (decide (s.brk.length > 1)) from rfl]
  generalize batch B (feasible s.zero0 s.zero1 (decide (s.brk.length > 1))) (atomsOf (src.map (·.1)) none) s.brk [] 0 = bt at *
  have hl := congrArg List.length this
  have hle := segmentsOf_length (placesEarly B s.brk s.zero0 s.zero1 (src.map (·.1)))
  rw [placesEarly_length, List.length_map] at hle
  rw [List.length_map] at hl
  rw [decide_eq_true (by omega), List.take_of_length_le (by omega), ← this, List.map_map]
  rfl

/-- The same for slices, if the end-of-text mark is not a place to cut. -/
theorem collect_slice_early {s : Seg β} (hr : Reachable B s) (text : List Int) (n : Nat)
    (hs : Steady ⟨s.zero0, s.zero1, decide (1 < s.brk.length)⟩ (verdicts B s.brk (text ++ [0])) text.length)
    (hE : ∀ p, (placesEarly B s.brk s.zero0 s.zero1 text)[text.length]? = some p → p.cut = false)
    (hn : text.length + 1 < n) :
    (s.initSlice text).collect B n = some (segmentsOf (placesEarly B s.brk s.zero0 s.zero1 text), true) := by
  have hi := reachable_inv B hr
  obtain ⟨w, f, b1, b2, b3, b4, b5, b6, _⟩ := initSlice_facts B hi text
  have ht := initSlice_todo B hi text
  have hp := batch_early B s.brk s.zero0 s.zero1 text hs
  rw [show s.test = feasible s.zero0 s.zero1 (decide (s.brk.length > 1)) from rfl] at ht
  rw [← ht] at hp
  have hl := congrArg List.length hp
  have hle := segmentsOf_length (placesEarly B s.brk s.zero0 s.zero1 text)
  rw [placesEarly_length] at hle
  rw [List.length_map] at hl
  rw [collect_backed B n _ w f b1 b2 (by rw [b4]; omega) ?_]
  · rw [decide_eq_true (by omega), List.take_of_length_le (by omega), ← hp]
    rfl
  · rw [b3, b4, List.drop_zero]
    have e0 : ((s.initSlice text).todo B).flatten.map (·.r) = ((((s.initSlice text).todo B).map sg).map (·.runes)).flatten := by
      rw [List.map_map, List.map_flatten]; rfl
    rw [e0, hp, segmentsOf_flatten]
    obtain ⟨rest, h1, h2, h3, h4⟩ := pieces_split Place.cut (placesEarly B s.brk s.zero0 s.zero1 text) [] (by simp)
    rw [List.nil_append] at h1
    have hrest : rest ≠ [] := by
      rintro rfl
      rw [List.append_nil] at h1
      cases hlast : (pieces Place.cut [] (placesEarly B s.brk s.zero0 s.zero1 text)).getLast? with
      | none =>
        rw [List.getLast?_eq_none_iff] at hlast
        rw [hlast] at h1
        have := congrArg List.length h1
        rw [placesEarly_length] at this; simp at this
      | some p =>
        have hmem := List.mem_of_getLast? hlast
        obtain ⟨q, a, rfl, ha, _⟩ := h3 p hmem
        obtain ⟨ys, hys⟩ := List.getLast?_eq_some_iff.mp hlast
        rw [hys] at h1
        have hl := congrArg List.length h1
        rw [placesEarly_length] at hl
        simp only [List.flatten_append, List.flatten_cons, List.flatten_nil, List.append_nil, List.length_append,
          List.length_cons, List.length_nil] at hl
        have := hE a (by
          rw [h1]
          simp only [List.flatten_append, List.flatten_cons, List.flatten_nil, List.append_nil]
          rw [← List.append_assoc, List.getElem?_append_right (by rw [List.length_append]; omega)]
          simp only [List.length_append]
          rw [show text.length - (ys.flatten.length + q.length) = 0 by omega]
          rfl)
        rw [ha] at this; cases this
    have e2 := congrArg (List.map Place.r) h1
    rw [placesEarly_runes, List.map_append] at e2
    obtain ⟨init, last, rfl⟩ : ∃ init last, rest = init ++ [last] :=
      ⟨rest.dropLast, rest.getLast hrest, (List.dropLast_concat_getLast hrest).symm⟩
    rw [List.map_append, List.map_cons, List.map_nil, ← List.append_assoc] at e2
    exact ⟨init.map (·.r), (List.append_inj' e2 rfl).1⟩

end Seg
end Uax
