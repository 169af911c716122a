import Verif.BidiIsoPlace

/-
Levels and positions of the characters of a text with isolates.
-/
namespace Uax.Bidi
open Spec

theorem starts_append : ∀ (a b : List Char) (pos : Nat), starts pos (a ++ b) = starts pos a ++ starts (pos + (utf8 a).length) b := by
  intro a
  induction a with
  | nil => intro b pos; rfl
  | cons c a ih =>
    intro b pos
    rw [List.cons_append, starts, starts, ih, utf8_len c a, List.cons_append, Nat.add_assoc]

theorem charsAt_append : ∀ (a b : List Char) (pos : Nat), charsAt pos (a ++ b) = charsAt pos a ++ charsAt (pos + (utf8 a).length) b := by
  intro a
  induction a with
  | nil => intro b pos; rfl
  | cons c a ih =>
    intro b pos
    rw [List.cons_append, charsAt, charsAt, ih, utf8_len c a, List.cons_append, Nat.add_assoc]

theorem starts_length : ∀ (t : List Char) (pos : Nat), (starts pos t).length = t.length
  | [], _ => rfl
  | c :: t, pos => by rw [starts, List.length_cons, starts_length, List.length_cons]

theorem starts_get : ∀ (t : List Char) (pos j p : Nat), (starts pos t)[j]? = some p → p = pos + ((widthsOf t).take j).sum ∧ j < t.length
  | [], _, j, p, h => by simp [starts] at h
  | c :: t, pos, 0, p, h => by
    rw [starts, List.getElem?_cons_zero, Option.some.injEq] at h
    exact ⟨by simp [h], by simp⟩
  | c :: t, pos, j + 1, p, h => by
    rw [starts, List.getElem?_cons_succ] at h
    obtain ⟨h1, h2⟩ := starts_get t _ j p h
    refine ⟨?_, by rw [List.length_cons]; omega⟩
    rw [h1]
    show _ = pos + (List.take (j + 1) ((utf8 [c]).length :: widthsOf t)).sum
    rw [List.take_succ_cons, List.sum_cons]
    omega

theorem take_starts (t : List Char) (pos i : Nat) (h : i < t.length) : pos + ((widthsOf t).take i).sum ∈ starts pos t := by
  obtain ⟨p, hp⟩ : ∃ p, (starts pos t)[i]? = some p := ⟨_, List.getElem?_eq_getElem (by rw [starts_length]; exact h)⟩
  have := (starts_get t pos i p hp).1
  rw [← this]
  exact List.mem_of_getElem? hp

theorem mem_zip_left {α β : Type} {a : α} : ∀ (xs : List α) (ys : List β), xs.length = ys.length → a ∈ xs → ∃ b, (a, b) ∈ xs.zip ys
  | [], _, _, h => by cases h
  | x :: xs, [], hl, _ => by simp at hl
  | x :: xs, y :: ys, hl, h => by
    rw [List.mem_cons] at h
    rcases h with rfl | h
    · exact ⟨y, by simp⟩
    · obtain ⟨b, hb⟩ := mem_zip_left xs ys (by simpa using hl) h
      exact ⟨b, by simp [hb]⟩

theorem mem_zip_get {α β : Type} {x : α × β} : ∀ (xs : List α) (ys : List β), x ∈ xs.zip ys → ∃ j : Nat, xs[j]? = some x.1 ∧ ys[j]? = some x.2
  | [], _, h => by cases h
  | _ :: _, [], h => by cases h
  | a :: xs, b :: ys, h => by
    rw [List.zip_cons_cons, List.mem_cons] at h
    rcases h with rfl | h
    · exact ⟨0, rfl, rfl⟩
    · obtain ⟨j, h1, h2⟩ := mem_zip_get xs ys h
      exact ⟨j + 1, h1, h2⟩

/-- The only character in an interval. -/
theorem inW_only {A B : List (Nat × Nat)} {p v q : Nat} (hA : ∀ x ∈ A, x.1 < p) (hB : ∀ x ∈ B, q ≤ x.1) (h : p < q) : inW (A ++ (p, v) :: B) p q = [(p, v)] := by
  unfold inW
  rw [List.filter_append, List.filter_cons, if_pos (by simp [h])]
  have h1 : A.filter (fun x => decide (p ≤ x.1 ∧ x.1 < q)) = [] := by
    rw [List.filter_eq_nil_iff]
    intro x hx
    have := hA x hx
    simp
    omega
  have h2 : B.filter (fun x => decide (p ≤ x.1 ∧ x.1 < q)) = [] := by
    rw [List.filter_eq_nil_iff]
    intro x hx
    have := hB x hx
    simp
    omega
  rw [h1, h2]
  rfl

theorem mark_hidden {T : Tables} {o : Options} {t : List Char} {c : Char} {p : Nat} (h : (c, p) ∈ charsAt 0 t) (hc : charClass T o c ∈ [cLRI, cRLI, cFSI, cPDI]) : visible T o t p = false := by
  unfold visible
  rw [List.all_eq_false]
  refine ⟨(c, p), h, ?_⟩
  intro k
  exact of_decide_eq_true k rfl hc

/-- Levels in an isolate in text of level 0. -/
def ownLevel (c x : Class) : Nat := if c = cRLI then Spec.level cR x else 2 + Spec.level cL x

theorem ownLevel_iso {c x : Class} (hx : x = cL ∨ x = cR) : ownLevel c x = isoLevel c x := by
  unfold ownLevel isoLevel
  split <;> rcases hx with rfl | rfl <;> rfl

theorem own_levels {T : Tables} {o : Options} {c : Class} (hc : c = cLRI ∨ c = cRLI) (lead : List Char) :
    sequenceLevels (nextLevel 0 c) (classes T o ((outerSequence lead .none).map (·.1))) = (resolved (isoDir c) (classes T o lead)).map (ownLevel c) := by
  have : (outerSequence lead .none).map (·.1) = lead := by
    unfold outerSequence
    rw [Isolates.sequence, List.append_nil, charsAt_chars]
  rw [this]
  unfold sequenceLevels nextLevel isoDir ownLevel
  rcases hc with rfl | rfl
  · simp [cLRI, cRLI]
  · simp [cLRI, cRLI]

/-- In text without initiators there is nothing to settle. -/
theorem settled_simple {e : Class} (he : e = cL ∨ e = cR) {cs : List Class} (h : SimpleClasses cs) : InitiatorsSettled e cs := by
  intro i x y _ hy hi _
  have hm := List.mem_of_getElem? hy
  rcases w1_mem cs e (by rcases he with rfl | rfl <;> decide) (simple_noIsolates h) y hm with k | ⟨k, -⟩
  · rw [k] at hi
    rcases he with rfl | rfl <;> exact absurd hi (by decide)
  · have := h y k
    simp only [List.mem_cons, List.not_mem_nil, or_false] at this
    rcases this with rfl | rfl | rfl | rfl | rfl | rfl | rfl | rfl <;> exact absurd hi (by decide)

/-- One isolate. -/
theorem iso_ok {T : Tables} {o : Options} {op cl : Char} {lead : List Char} {P : Nat} {run : List Scrap} {A B W : List (Nat × Nat)}
    (hop : charClass T o op = cLRI ∨ charClass T o op = cRLI) (hcl : charClass T o cl = cPDI)
    (hnum : NumbersLTR (if charClass T o op = cLRI then cL else cR) (classes T o lead)) (hs : SimpleClasses (classes T o lead)) (hh : (classes T o lead).head? ≠ some cNSM)
    (ht : Tiles P (P + (utf8 (op :: lead ++ [cl])).length) run)
    (hd : ∃ first mid last, run = first :: (mid ++ [last]) ∧ Delimiter first (charClass T o op) (utf8 [op]).length ∧ Delimiter last (charClass T o cl) (utf8 [cl]).length)
    (hmax : Maximal run) (hn : nestedRuns run = []) (hr : ∃ runs, RawFor T o (.more op lead .none cl [] .none) P (run :: runs))
    (hW : W = A ++ (P, 0) :: ((starts (P + (utf8 [op]).length) lead).zip ((resolved (isoDir (charClass T o op)) (classes T o lead)).map (ownLevel (charClass T o op))) ++
      (P + (utf8 (op :: lead)).length, 0) :: B))
    (hA : ∀ x ∈ A, x.1 < P) (hB : ∀ x ∈ B, P + (utf8 (op :: lead ++ [cl])).length ≤ x.1) :
    (resolved (isoDir (charClass T o op)) (classes T o lead)).length = lead.length ∧ (∀ x ∈ resolved (isoDir (charClass T o op)) (classes T o lead), x = cL ∨ x = cR) ∧
    ∃ first mid last, run = first :: (mid ++ [last]) ∧ first.clz = charClass T o op ∧ IsoOk W first mid last P (P + (utf8 (op :: lead ++ [cl])).length) ∧ last.l = P + (utf8 (op :: lead)).length := by
  have hlead : classes T o (lead ++ Isolates.none.outer) = classes T o lead := by simp [Isolates.outer]
  have hseq : classes T o lead ++ seqClasses T o .none = classes T o lead := by simp [seqClasses]
  have hwid : widthsOf lead ++ seqWidths .none = widthsOf lead := by simp [seqWidths]
  have he : isoDir (charClass T o op) = cL ∨ isoDir (charClass T o op) = cR := by unfold isoDir; split <;> simp
  obtain ⟨k1, k2, k3, k4, k5⟩ := raw_own (T := T) (o := o) (op := op) (lead := lead) (inner := .none) (pos := P) rfl hop (by rw [hlead]; exact hnum) (fun h => absurd rfl h) trivial
    (by rw [hlead]; exact hs) hh (fun h => absurd rfl h) (by rw [hseq]; exact settled_simple he hs)
  rw [hseq, hwid] at k3 k4
  obtain ⟨first, mid, last, rfl, d1, d2⟩ := hd
  obtain ⟨runs, f', m', l', runs', w1, w2, w3, -⟩ := hr
  rw [List.cons.injEq] at w1
  obtain ⟨w1, -⟩ := w1
  rw [List.cons.injEq] at w1
  obtain ⟨rfl, w1⟩ := w1
  obtain ⟨rfl, w5⟩ := List.append_inj' w1 rfl
  rw [List.cons.injEq] at w5
  obtain ⟨rfl, -⟩ := w5
  obtain ⟨m1, m2⟩ := w3 hh k1 k2 k5
  rw [k3] at m2
  have hlen : (resolved (isoDir (charClass T o op)) (classes T o lead)).length = lead.length := by rw [k4, widthsOf, List.length_map]
  have hwpos : ∀ w ∈ widthsOf lead, 0 < w := by
    intro w hw
    exact seq_widths_pos lead .none w (List.mem_append_left _ hw)
  obtain ⟨t1, t2⟩ := ht
  obtain ⟨z, t3, t4⟩ := tiles_append.mp t2
  have hz : last.l = z := t4.1
  have hQ : last.r = P + (utf8 (op :: lead ++ [cl])).length := t4.2
  have hlr := d2.2.1
  have hopl : (utf8 (op :: lead)).length = (utf8 [op]).length + (utf8 lead).length := utf8_len op lead
  have hol : (utf8 (op :: lead ++ [cl])).length = (utf8 (op :: lead)).length + (utf8 [cl]).length := by
    rw [← List.singleton_append]
    simp [utf8]
    omega
  have hll : last.l = P + (utf8 (op :: lead)).length := by omega
  have hoppos := Bidi.utf8_pos op
  have hclpos := Bidi.utf8_pos cl
  have hbytes := fun s hs => (m1 s hs).2
  have hmk : Linked (fun a b : Scrap => a.clz ≠ b.clz) mid := by
    have : ∀ (l pre post : List Scrap), first :: (mid ++ [last]) = pre ++ l ++ post → (∀ s ∈ l, s.clz = cL ∨ s.clz = cR) → Linked (fun a b : Scrap => a.clz ≠ b.clz) l := by
      intro l
      induction l with
      | nil => intros; trivial
      | cons a l ih =>
        intro pre post e hl
        cases l with
        | nil => trivial
        | cons b l =>
          refine ⟨?_, ih (pre ++ [a]) post (by rw [e]; simp) (fun s hs => hl s (List.mem_cons_of_mem _ hs))⟩
          intro hab
          exact hmax pre a b (l ++ post) (by rw [e]; simp) ⟨hab, hl a (by simp)⟩
    exact this mid [first] [last] (by simp) (fun s hs => (m1 s hs).1)
  have hget : ∀ (j : Nat) (p : Nat), (starts (P + (utf8 [op]).length) lead)[j]? = some p → (byteClasses mid)[p - first.r]? = (resolved (isoDir (charClass T o op)) (classes T o lead))[j]? := by
    intro j p hp
    obtain ⟨q1, q2⟩ := starts_get _ _ _ _ hp
    have hw : (widthsOf lead)[j]? = some ((widthsOf lead)[j]'(by rw [widthsOf, List.length_map]; exact q2)) := List.getElem?_eq_getElem _
    have := widen_get (widthsOf lead) _ j _ 0 k4.symm hw (hwpos _ (List.mem_of_getElem? hw))
    rw [m2, ← this]
    congr 1
    omega
  refine ⟨hlen, ?_, first, mid, last, rfl, d1.1, ?_, hll⟩
  · intro x hx
    obtain ⟨j, hj, rfl⟩ := List.getElem_of_mem hx
    obtain ⟨p, hp⟩ : ∃ p, (starts (P + (utf8 [op]).length) lead)[j]? = some p := ⟨_, List.getElem?_eq_getElem (by rw [starts_length]; omega)⟩
    have h := hget j p hp
    rw [List.getElem?_eq_getElem hj] at h
    obtain ⟨s, s1, s2⟩ := bytes_mem (List.mem_of_getElem? h)
    rw [← s2]
    exact (m1 s s1).1
  · refine ⟨by rw [d1.1]; exact hop, d1.2.2, by rw [d2.1]; exact hcl, d2.2.2, ⟨t1, t2⟩, by have := d1.2.1; omega, by omega, ?_, hmk, ?_, ?_⟩
    · intro m hm
      refine ⟨(m1 m hm).1, (m1 m hm).2, ?_, ?_, ?_⟩
      · unfold nestedRuns at hn
        rw [List.flatMap_eq_nil_iff] at hn
        exact hn m (by simp [hm])
      · obtain ⟨e0, e1⟩ := edge_left t3 hbytes hmk hm
        obtain ⟨-, f1, f2⟩ := bytes_at _ _ _ m.l m t3 hbytes hm (Nat.le_refl _) (m1 m hm).2
        obtain ⟨i, i1, i2⟩ := widen_edge (widthsOf lead) _ (m.l - first.r) k4.symm hwpos (by
          rw [← m2]
          exact (List.getElem?_eq_some_iff.mp f2).1) (by
          rw [← m2]
          rcases e1 with e1 | ⟨e1, e2⟩
          · exact Or.inl (by omega)
          · refine Or.inr ?_
            rw [f2, show m.l - first.r - 1 = m.l - 1 - first.r by omega]
            exact e2)
        have hst := take_starts lead (P + (utf8 [op]).length) i (by rw [widthsOf, List.length_map] at i1; exact i1)
        rw [← i2, show P + (utf8 [op]).length + (m.l - first.r) = m.l by omega] at hst
        obtain ⟨v, hv⟩ := mem_zip_left _ ((resolved (isoDir (charClass T o op)) (classes T o lead)).map (ownLevel (charClass T o op))) (by rw [starts_length, List.length_map, hlen]) hst
        exact ⟨(m.l, v), by rw [hW]; simp [hv], rfl⟩
      · intro x hx x1 x2
        obtain ⟨e0, e1, -⟩ := bytes_at _ _ _ m.l m t3 hbytes hm (Nat.le_refl _) (m1 m hm).2
        rw [hW, List.mem_append, List.mem_cons, List.mem_append, List.mem_cons] at hx
        rcases hx with hx | rfl | hx | rfl | hx
        · have := hA x hx
          omega
        · dsimp only at x1
          omega
        · obtain ⟨j, j1, j2⟩ := mem_zip_get _ _ hx
          have h1 := hget j x.1 j1
          obtain ⟨-, -, h2⟩ := bytes_at _ _ _ x.1 m t3 hbytes hm x1 x2
          rw [h2] at h1
          rw [List.getElem?_map, ← h1, Option.map_some, Option.some.injEq] at j2
          rw [← j2, d1.1]
          exact ownLevel_iso (m1 m hm).1
        · dsimp only at x2
          omega
        · have := hB x hx
          omega
    · rw [hW, t1]
      refine inW_only hA ?_ (by omega)
      intro x hx
      rw [List.mem_append, List.mem_cons] at hx
      rcases hx with hx | rfl | hx
      · obtain ⟨j, j1, -⟩ := mem_zip_get _ _ hx
        have := (starts_get _ _ _ _ j1).1
        omega
      · dsimp only
        omega
      · have := hB x hx
        omega
    · rw [hW, ← List.cons_append, ← List.append_assoc, hll]
      refine inW_only ?_ (by intro x hx; have := hB x hx; omega) (by omega)
      intro x hx
      rw [List.mem_append, List.mem_cons] at hx
      rcases hx with hx | rfl | hx
      · have := hA x hx
        omega
      · dsimp only
        omega
      · obtain ⟨j, j1, -⟩ := mem_zip_get _ _ hx
        have := (starts_sorted lead (P + (utf8 [op]).length)).2 _ (List.mem_of_getElem? j1)
        omega

/-- Isolates are among text from left to right; the first one is at the index `n` of the sequence. -/
def AmongAt (T : Tables) (o : Options) (R : List Class) : Nat → Isolates → Prop
  | _, .none => True
  | n, .more op _ _ _ after rest => (n = 0 → charClass T o op = cRLI) ∧ (0 < n → R[n - 1]? = some cL) ∧ R[n]? = some cL ∧ R[n + 1]? = some cL ∧
      (n + 2 < R.length → R[n + 2]? = some cL) ∧ AmongAt T o R (n + (2 + after.length)) rest

theorem level_le (c : Class) : Spec.level cL c ≤ 2 := by
  unfold Spec.level
  rw [if_pos rfl]
  split
  · omega
  · split <;> omega

/-- Isolates and their levels. -/
theorem placed {T : Tables} {o : Options} {t : List Char} {R D : List Class} {W : List (Nat × Nat)} : ∀ (is : Isolates) (A : List (Nat × Nat)) (ws : List Nat) (AC : List (Char × Nat))
    (pos : Nat) (runs : List (List Scrap)), is.Good T o false → is.depth ≤ 1 → is.Simple T o → is.RunsFor T o pos runs → RawFor T o is pos runs → pos = ws.sum →
    (∀ w ∈ ws, 0 < w) → R.length = (ws ++ seqWidths is).length → D = widen (ws ++ seqWidths is) R → AmongAt T o R ws.length is →
    W = A ++ (starts pos is.chars).zip (is.levels T o 0 ((R.drop ws.length).map (Spec.level cL))) → (∀ x ∈ A, x.1 < pos) → charsAt 0 t = AC ++ charsAt pos is.chars →
    Chain W pos runs ∧ (∀ ch ∈ runs, AroundL D D.length ch ∧ MarksHidden (visible T o t) [ch]) ∧
      (is.levels T o 0 ((R.drop ws.length).map (Spec.level cL))).length = is.chars.length ∧
      ∀ x ∈ (starts pos is.chars).zip (is.levels T o 0 ((R.drop ws.length).map (Spec.level cL))),
        x.2 ≤ 3 ∧ ((∃ c, D[x.1]? = some c ∧ x.2 = Spec.level cL c) ∨ ∃ ch ∈ runs, InIso ch x.1) := by
  intro is
  induction is with
  | none =>
    intro A ws AC pos runs _ _ _ hr _ _ _ _ _ _ _ _ _
    have hr : runs = [] := hr
    subst hr
    exact ⟨trivial, by simp, rfl, by simp [Isolates.chars, starts]⟩
  | more op lead inner cl aft rest _ ih =>
    intro A ws AC pos runs hg hdep hsim hr hraw hpos hws hRl hD ham hW hA hAC
    obtain ⟨g1, g2, g3, g4, g5, g6, g7, g8, g9, g10⟩ := hg
    have hin : inner = .none := by
      cases inner with
      | none => rfl
      | more => simp only [Isolates.depth] at hdep; omega
    subst hin
    have hdr : rest.depth ≤ 1 := by simp only [Isolates.depth] at hdep; omega
    obtain ⟨s1, s2, s3⟩ := hsim
    obtain ⟨run, runs', rfl, r1, r2, r3, r4, r5, r6, r7⟩ := hr
    obtain ⟨am1, am2, am3, am4, am5, am6⟩ := ham
    have hnone : lead ++ Isolates.none.chars = lead := by simp [Isolates.chars]
    have hnone' : lead ++ Isolates.none.outer = lead := by simp [Isolates.outer]
    rw [hnone] at r1 r7
    rw [hnone'] at g7
    have hlw : (seqWidths (.more op lead .none cl aft rest)) = (utf8 (op :: lead)).length :: (utf8 [cl]).length :: (widthsOf aft ++ seqWidths rest) := by
      rw [seqWidths, hnone]
    have hchars : (Isolates.more op lead .none cl aft rest).chars = op :: lead ++ cl :: (aft ++ rest.chars) := by rw [Isolates.chars, hnone]
    rw [hlw] at hRl hD
    -- the classes of the sequence
    have hwl : (widthsOf aft).length = aft.length := by rw [widthsOf, List.length_map]
    rw [List.length_append, List.length_cons, List.length_cons, List.length_append, hwl] at hRl
    have hdrop : R.drop ws.length = cL :: cL :: ((R.drop (ws.length + 2)).take aft.length ++ R.drop (ws.length + (2 + aft.length))) := by
      rw [List.drop_eq_getElem_cons (by omega), List.drop_eq_getElem_cons (by omega)]
      have h1 : R[ws.length] = cL := by rw [List.getElem?_eq_getElem (by omega)] at am3; exact Option.some.inj am3
      have h2 : R[ws.length + 1] = cL := by rw [List.getElem?_eq_getElem (by omega)] at am4; exact Option.some.inj am4
      rw [h1, h2]
      congr 2
      conv => lhs; rw [← List.take_append_drop aft.length (R.drop (ws.length + 1 + 1))]
      rw [List.drop_drop]
      congr 2
      omega
    have htl : ((R.drop (ws.length + 2)).take aft.length).length = aft.length := by rw [List.length_take, List.length_drop]; omega
    generalize hra : (R.drop (ws.length + 2)).take aft.length = ra at hdrop htl
    have hl0 : Spec.level cL cL = 0 := rfl
    have hlev : (Isolates.more op lead .none cl aft rest).levels T o 0 ((R.drop ws.length).map (Spec.level cL)) =
        0 :: (((resolved (isoDir (charClass T o op)) (classes T o lead)).map (ownLevel (charClass T o op))).take lead.length ++
          0 :: (ra.map (Spec.level cL) ++ rest.levels T o 0 ((R.drop (ws.length + (2 + aft.length))).map (Spec.level cL)))) := by
      rw [Isolates.levels, hdrop]
      rw [own_levels g1, List.map_cons, List.map_cons, hl0, Isolates.levels, List.append_nil, List.map_append]
      have e1 : List.take (1 + aft.length) (List.drop 1 (0 :: 0 :: (ra.map (Spec.level cL) ++ (R.drop (ws.length + (2 + aft.length))).map (Spec.level cL)))) = 0 :: ra.map (Spec.level cL) := by
        rw [List.drop_succ_cons, List.drop_zero, Nat.add_comm, List.take_succ_cons, List.take_left' (by rw [List.length_map]; exact htl)]
      have e2 : List.drop (2 + aft.length) (0 :: 0 :: (ra.map (Spec.level cL) ++ (R.drop (ws.length + (2 + aft.length))).map (Spec.level cL))) = (R.drop (ws.length + (2 + aft.length))).map (Spec.level cL) := by
        rw [Nat.add_comm, List.drop_succ_cons, List.drop_succ_cons, List.drop_left' (by rw [List.length_map]; exact htl)]
      rw [e1, e2]
      simp
    generalize hpc : pos + (utf8 (op :: lead)).length = pc
    generalize hQ : pos + (utf8 (op :: lead ++ [cl])).length = Q at r1
    generalize hnx : pos + (utf8 (op :: lead ++ cl :: aft)).length = nx at r7
    have hopl : (utf8 (op :: lead)).length = (utf8 [op]).length + (utf8 lead).length := utf8_len op lead
    have hQ2 : Q = pc + (utf8 [cl]).length := by
      rw [← hQ, ← hpc]
      simp [utf8]
      omega
    have hnx2 : nx = Q + (utf8 aft).length := by
      rw [← hnx, ← hQ]
      simp [utf8]
      omega
    have hoppos := Bidi.utf8_pos op
    have hclpos := Bidi.utf8_pos cl
    have hst : starts pos (Isolates.more op lead .none cl aft rest).chars =
        pos :: (starts (pos + (utf8 [op]).length) lead ++ pc :: (starts Q aft ++ starts nx rest.chars)) := by
      rw [hchars, List.cons_append, starts, starts_append, starts, starts_append]
      rw [show pos + (utf8 [op]).length + (utf8 lead).length = pc by omega, ← hQ2, ← hnx2]
    have hct : charsAt pos (Isolates.more op lead .none cl aft rest).chars =
        (op, pos) :: (charsAt (pos + (utf8 [op]).length) lead ++ (cl, pc) :: (charsAt Q aft ++ charsAt nx rest.chars)) := by
      rw [hchars, List.cons_append, charsAt, charsAt_append, charsAt, charsAt_append]
      rw [show pos + (utf8 [op]).length + (utf8 lead).length = pc by omega, ← hQ2, ← hnx2]
    have hmt : classes T o lead ++ [] = classes T o lead := List.append_nil _
    -- lengths
    have hrl : (resolved (isoDir (charClass T o op)) (classes T o lead)).length = lead.length := by
      have he : isoDir (charClass T o op) = cL ∨ isoDir (charClass T o op) = cR := by unfold isoDir; split <;> simp
      have := (raw_own (T := T) (o := o) (op := op) (lead := lead) (inner := .none) (pos := pos) rfl g1 (by rw [hnone']; exact g7) (fun h => absurd rfl h) trivial
        (by rw [hnone']; exact s1) s2 (fun h => absurd rfl h) (by rw [seqClasses, hmt]; exact settled_simple he s1)).2.2.2.1
      rw [seqClasses, hmt, seqWidths, List.append_nil, widthsOf, List.length_map] at this
      exact this
    rw [List.take_of_length_le (by rw [List.length_map, hrl]; exact Nat.le_refl _)] at hlev
    have hzip : (starts pos (Isolates.more op lead .none cl aft rest).chars).zip ((Isolates.more op lead .none cl aft rest).levels T o 0 ((R.drop ws.length).map (Spec.level cL))) =
        (pos, 0) :: ((starts (pos + (utf8 [op]).length) lead).zip ((resolved (isoDir (charClass T o op)) (classes T o lead)).map (ownLevel (charClass T o op))) ++
          (pc, 0) :: ((starts Q aft).zip (ra.map (Spec.level cL)) ++ (starts nx rest.chars).zip (rest.levels T o 0 ((R.drop (ws.length + (2 + aft.length))).map (Spec.level cL))))) := by
      rw [hst, hlev, List.zip_cons_cons, List.zip_append (by rw [starts_length, List.length_map, hrl]), List.zip_cons_cons,
        List.zip_append (by rw [starts_length, List.length_map, htl])]
    rw [hzip] at hW
    have hafter : ∀ x ∈ (starts Q aft).zip (ra.map (Spec.level cL)), Q ≤ x.1 ∧ x.1 < nx := by
      intro x hx
      obtain ⟨j, j1, -⟩ := mem_zip_get _ _ hx
      have := (starts_sorted aft Q).2 _ (List.mem_of_getElem? j1)
      omega
    have hrest : ∀ x ∈ (starts nx rest.chars).zip (rest.levels T o 0 ((R.drop (ws.length + (2 + aft.length))).map (Spec.level cL))), nx ≤ x.1 := by
      intro x hx
      obtain ⟨j, j1, -⟩ := mem_zip_get _ _ hx
      exact ((starts_sorted rest.chars nx).2 _ (List.mem_of_getElem? j1)).1
    have hmid : ∀ x ∈ (starts (pos + (utf8 [op]).length) lead).zip ((resolved (isoDir (charClass T o op)) (classes T o lead)).map (ownLevel (charClass T o op))), pos < x.1 ∧ x.1 < pc := by
      intro x hx
      obtain ⟨j, j1, -⟩ := mem_zip_get _ _ hx
      have := (starts_sorted lead (pos + (utf8 [op]).length)).2 _ (List.mem_of_getElem? j1)
      omega
    -- the isolate
    have hB : ∀ x ∈ (starts Q aft).zip (ra.map (Spec.level cL)) ++ (starts nx rest.chars).zip (rest.levels T o 0 ((R.drop (ws.length + (2 + aft.length))).map (Spec.level cL))), Q ≤ x.1 := by
      intro x hx
      rw [List.mem_append] at hx
      rcases hx with hx | hx
      · exact (hafter x hx).1
      · have := hrest x hx
        omega
    have hraw' := hraw
    obtain ⟨f', m', l', runs2, q1, q2, q3, q4, q5⟩ := hraw
    rw [List.cons.injEq] at q1
    obtain ⟨q0, q1⟩ := q1
    subst q1
    rw [hnone] at q5
    rw [show pos + (utf8 (op :: lead ++ cl :: aft)).length = nx from hnx] at q5
    obtain ⟨-, hLR, first, mid, last, hrun, hfc, hiso, hll⟩ := iso_ok (W := W) (A := A) (run := run) (P := pos) g1 g2 g7 s1 s2 (by rw [hQ]; exact r1) r3 r4 r6
      ⟨[], f', m', l', [], by rw [q0], q2, q3, q4, trivial⟩ (by rw [hpc]; exact hW) hA (by rw [hQ]; exact hB)
    rw [hQ] at hiso
    rw [hpc] at hll
    obtain ⟨e1, e2, e3⟩ := iso_span hiso
    have hlast : (first :: (mid ++ [last])).getLast? = some last := by rw [← List.cons_append, List.getLast?_concat]
    -- the rest
    obtain ⟨h1, h2, h3, h4⟩ := ih (A ++ ((pos, 0) :: ((starts (pos + (utf8 [op]).length) lead).zip ((resolved (isoDir (charClass T o op)) (classes T o lead)).map (ownLevel (charClass T o op))) ++
          (pc, 0) :: (starts Q aft).zip (ra.map (Spec.level cL))))) (ws ++ (utf8 (op :: lead)).length :: (utf8 [cl]).length :: widthsOf aft)
      (AC ++ (op, pos) :: (charsAt (pos + (utf8 [op]).length) lead ++ (cl, pc) :: charsAt Q aft)) nx runs' g10 hdr s3 r7 q5
      (by rw [List.sum_append, List.sum_cons, List.sum_cons, widthsOf_sum, ← hpos]; omega)
      (by
        intro w hw
        rw [List.mem_append, List.mem_cons, List.mem_cons] at hw
        rcases hw with hw | rfl | rfl | hw
        · exact hws w hw
        · omega
        · omega
        · exact seq_widths_pos aft .none w (List.mem_append_left _ hw))
      (by simp only [List.length_append, List.length_cons, hwl]; omega)
      (by rw [hD]; simp)
      (by
        have : (ws ++ (utf8 (op :: lead)).length :: (utf8 [cl]).length :: widthsOf aft).length = ws.length + (2 + aft.length) := by
          simp only [List.length_append, List.length_cons, hwl]; omega
        rw [this]; exact am6)
      (by
        have : (ws ++ (utf8 (op :: lead)).length :: (utf8 [cl]).length :: widthsOf aft).length = ws.length + (2 + aft.length) := by
          simp only [List.length_append, List.length_cons, hwl]; omega
        rw [this, hW]
        simp)
      (by
        intro x hx
        rw [List.mem_append, List.mem_cons, List.mem_append, List.mem_cons] at hx
        rcases hx with hx | rfl | hx | rfl | hx
        · have := hA x hx; omega
        · dsimp only; omega
        · have := hmid x hx; omega
        · dsimp only; omega
        · exact (hafter x hx).2)
      (by rw [hAC, hct]; simp)
    have hwsl : (ws ++ (utf8 (op :: lead)).length :: (utf8 [cl]).length :: widthsOf aft).length = ws.length + (2 + aft.length) := by
      simp only [List.length_append, List.length_cons, hwl]; omega
    rw [hwsl] at h3 h4
    have hDl : (ws ++ (utf8 (op :: lead)).length :: (utf8 [cl]).length :: (widthsOf aft ++ seqWidths rest)).length = R.length := by
      simp only [List.length_append, List.length_cons, hwl]; omega
    have hinit : (ws ++ (utf8 (op :: lead)).length :: (utf8 [cl]).length :: (widthsOf aft ++ seqWidths rest)).take ws.length = ws := by
      rw [List.take_left' rfl]
    -- bytes of the sequence
    have hop : ∀ k, k < (utf8 (op :: lead)).length → D[pos + k]? = some cL := by
      intro k hk
      have := widen_get _ R ws.length (utf8 (op :: lead)).length k hDl (by rw [List.getElem?_append_right (Nat.le_refl _), Nat.sub_self]; rfl) hk
      rw [hinit, ← hpos, ← hD, am3] at this
      exact this
    have hcl : ∀ k, k < (utf8 [cl]).length → D[pc + k]? = some cL := by
      intro k hk
      have := widen_get _ R (ws.length + 1) (utf8 [cl]).length k hDl (by rw [List.getElem?_append_right (by omega), Nat.add_sub_cancel_left]; rfl) hk
      rw [List.take_append, List.take_of_length_le (by omega), Nat.add_sub_cancel_left, List.take_succ_cons, List.take_zero, List.sum_append, List.sum_singleton, ← hpos, ← hD, am4, hpc] at this
      exact this
    have haft : ∀ (j : Nat) (p : Nat), (starts Q aft)[j]? = some p → D[p]? = ra[j]? := by
      intro j p hp
      obtain ⟨k1, k2⟩ := starts_get _ _ _ _ hp
      have hw : (widthsOf aft)[j]? = some ((widthsOf aft)[j]'(by omega)) := List.getElem?_eq_getElem _
      have hwp := seq_widths_pos aft .none _ (List.mem_append_left _ (List.mem_of_getElem? hw))
      have := widen_get _ R (ws.length + (2 + j)) _ 0 hDl (by
        rw [List.getElem?_append_right (by omega), Nat.add_sub_cancel_left, Nat.add_comm 2 j, List.getElem?_cons_succ, List.getElem?_cons_succ, List.getElem?_append_left (by omega)]
        exact hw) hwp
      rw [List.take_append, List.take_of_length_le (by omega), Nat.add_sub_cancel_left, Nat.add_comm 2 j, List.take_succ_cons, List.take_succ_cons, List.take_append_of_le_length (by omega),
        List.sum_append, List.sum_cons, List.sum_cons, ← hpos, ← hD] at this
      rw [← hra, List.getElem?_take, if_pos k2, List.getElem?_drop, show ws.length + 2 + j = ws.length + (j + 2) by omega, ← this]
      congr 1
      omega
    have hDQ : Q = D.length ∨ D[Q]? = some cL := by
      cases haf : aft with
      | nil =>
        obtain ⟨-, hrn⟩ := g4 haf
        refine Or.inl ?_
        have hz : (widen (ws ++ (utf8 (op :: lead)).length :: (utf8 [cl]).length :: (widthsOf aft ++ seqWidths rest)) R).length =
            (ws ++ (utf8 (op :: lead)).length :: (utf8 [cl]).length :: (widthsOf aft ++ seqWidths rest)).sum := by
          have : ∀ (ws : List Nat) (xs : List Class), ws.length = xs.length → (widen ws xs).length = ws.sum := by
            intro ws
            induction ws with
            | nil => intro xs h; cases xs with
              | nil => rfl
              | cons => simp at h
            | cons w ws ih =>
              intro xs h
              cases xs with
              | nil => simp at h
              | cons x xs => rw [widen_cons, List.length_append, List.length_replicate, ih xs (by simpa using h), List.sum_cons]
          exact this _ _ hDl
        rw [hD, hz, haf, hrn, List.sum_append, ← hpos]
        simp only [widthsOf, seqWidths, List.map_nil, List.append_nil, List.sum_cons, List.sum_nil]
        omega
      | cons c aft' =>
        refine Or.inr ?_
        have h0 : (starts Q aft)[0]? = some Q := by rw [haf]; rfl
        have := haft 0 Q h0
        rw [this, ← hra, List.getElem?_take, if_pos (by rw [haf]; simp), List.getElem?_drop]
        have hpos2 : 0 < aft.length := by rw [haf]; simp
        exact am5 (by omega)
    have hDP : pos = 0 ∨ D[pos - 1]? = some cL := by
      rcases Nat.eq_zero_or_pos ws.length with h | h
      · have : ws = [] := List.length_eq_zero_iff.mp h
        subst this
        exact Or.inl hpos
      · refine Or.inr ?_
        have hw : ws[ws.length - 1]? = some (ws[ws.length - 1]'(by omega)) := List.getElem?_eq_getElem _
        have hwp := hws _ (List.mem_of_getElem? hw)
        have := widen_get _ R (ws.length - 1) _ (ws[ws.length - 1]'(by omega) - 1) hDl (by rw [List.getElem?_append_left (by omega)]; exact hw) (by omega)
        rw [← hD, List.take_append_of_le_length (by omega), am2 h] at this
        rw [← this]
        congr 1
        have hsum : (ws.take (ws.length - 1)).sum + ws[ws.length - 1]'(by omega) = ws.sum := by
          have e := List.take_append_drop (ws.length - 1) ws
          have e' := congrArg List.sum e
          rw [List.sum_append, List.drop_eq_getElem_cons (by omega), List.sum_cons, List.drop_of_length_le (by omega), List.sum_nil] at e'
          omega
        omega
    refine ⟨?_, ?_, ?_, ?_⟩
    · refine ⟨first, mid, last, pos, Q, hrun, hiso, Nat.le_refl _, ?_, ?_⟩
      · intro h0
        rw [hfc]
        refine am1 ?_
        cases ws with
        | nil => rfl
        | cons w ws =>
          have := hws w (List.mem_cons_self ..)
          rw [List.sum_cons] at hpos
          omega
      · cases haf : aft with
        | nil =>
          obtain ⟨-, hrn⟩ := g4 haf
          rw [hrn] at r7
          have r7 : runs' = [] := r7
          rw [r7]
          trivial
        | cons c aft' =>
          have : 0 < (utf8 aft).length := by rw [haf, utf8_len]; have := Bidi.utf8_pos c; omega
          exact chain_weaken h1 (by omega)
    · intro ch hch
      rw [List.mem_cons] at hch
      rcases hch with rfl | hch
      · rw [hrun]
        refine ⟨?_, ?_⟩
        · intro a ha b hb
          rw [List.head?_cons, Option.mem_def, Option.some.injEq] at ha
          rw [hlast, Option.mem_def, Option.some.injEq] at hb
          subst ha
          subst hb
          rw [e1, e2]
          refine ⟨fun p k1 k2 => ?_, hDP, hDQ⟩
          by_cases hp : p < pc
          · have := hop (p - pos) (by omega)
            rwa [show pos + (p - pos) = p by omega] at this
          · have := hcl (p - pc) (by omega)
            rwa [show pc + (p - pc) = p by omega] at this
        · intro c hc s hs k1 k2
          rw [List.mem_singleton] at hc
          subst hc
          rw [List.mem_cons, List.mem_append, List.mem_singleton] at hs
          rcases hs with rfl | hs | rfl
          · rw [e1]
            refine mark_hidden (c := op) ?_ (by rcases g1 with h | h <;> rw [h] <;> decide)
            rw [hAC, hct]
            simp
          · rcases (hiso.2.2.2.2.2.2.2.1 s hs).1 with k | k
            · exact absurd k k1
            · exact absurd k k2
          · rw [hll]
            refine mark_hidden (c := cl) ?_ (by rw [g2]; decide)
            rw [hAC, hct]
            simp
      · exact h2 ch hch
    · rw [hlev, hchars]
      simp only [List.length_append, List.length_cons, List.length_map, hrl, htl, h3]
      omega
    · intro x hx
      have hI : ∀ q, pos ≤ q → q < Q → ∃ ch ∈ run :: runs', InIso ch q := by
        intro q k1 k2
        refine ⟨run, List.mem_cons_self .., first, by rw [hrun]; rfl, last, by rw [hrun]; exact hlast, by omega, by omega⟩
      rw [hzip, List.mem_cons, List.mem_append, List.mem_cons, List.mem_append] at hx
      rcases hx with rfl | hx | rfl | hx | hx
      · exact ⟨by simp, Or.inr (hI _ (Nat.le_refl _) e3)⟩
      · have := hmid x hx
        obtain ⟨j, -, j2⟩ := mem_zip_get _ _ hx
        obtain ⟨c, hc, hcx⟩ := List.mem_map.mp (List.mem_of_getElem? j2)
        refine ⟨?_, Or.inr (hI _ (by omega) (by omega))⟩
        rw [← hcx, ownLevel_iso (hLR c hc)]
        unfold isoLevel
        split <;> split <;> omega
      · exact ⟨by simp, Or.inr (hI _ (by dsimp only; omega) (by dsimp only; omega))⟩
      · obtain ⟨j, j1, j2⟩ := mem_zip_get _ _ hx
        rw [List.getElem?_map, Option.map_eq_some_iff] at j2
        obtain ⟨c, j2, j3⟩ := j2
        refine ⟨by rw [← j3]; have := level_le c; omega, Or.inl ⟨c, ?_, j3.symm⟩⟩
        rw [haft j x.1 j1, j2]
      · obtain ⟨k1, k2⟩ := h4 x hx
        refine ⟨k1, ?_⟩
        rcases k2 with k | ⟨ch, k, k'⟩
        · exact Or.inl k
        · exact Or.inr ⟨ch, List.mem_cons_of_mem _ k, k'⟩

end Uax.Bidi
