import Verif.LinePenalty
import Verif.Props.Word

/-! Properties C24, C25, C27, C28 and C29 for the line breaker. -/

namespace Uax
open Seg Line SpecLine

namespace Line

theorem past_rep (T : LTables) (past : List Int) (h : CompletePast past) : Rep [] ((breaker T).run Line.new past) := by
  have hr := run_rep T past new_rep
  rcases h with rfl | h
  · exact new_rep
  · obtain ⟨ys, rfl⟩ := List.getLast?_eq_some_iff.mp h
    rw [sees_append, List.reverse_append, List.append_nil, List.append_nil] at hr
    have e : sees T ((sees T [] ys).reverse) [0] = [(LClass.eot, false)] := by simp only [sees, cls_zero]
    rw [e] at hr
    exact rep_eot hr

end Line

/-! ### C29 -/

/-- The breaker never panics. -/
theorem C29_never_panics (T : LTables) (rs : List Int) : ∃ b, rs.foldlM (stepO T) Line.new = some b := by
  suffices h : ∀ (rs : List Int) (h : List LC) (b : LBrk), Rep h b → ∃ b', rs.foldlM (stepO T) b = some b' from h rs _ _ new_rep
  intro rs
  induction rs with
  | nil => intro h b _; exact ⟨b, rfl⟩
  | cons r rs ih =>
    intro h b hR
    obtain ⟨b', h1, h2, _⟩ := stepO_rep T hR r
    rw [List.foldlM_cons, h1]
    exact ih _ _ h2

/-- LB1: the class of a rune in the following theorems is the one of the only table in which it is,
replaced as LB1 says; runes in no table are AL. -/
theorem C29_classes (T : LTables) (r : Int) (hr : r ≠ 0) :
    (∀ c, c ∉ [LClass.sot, .eot] → (∀ d, T.is d r = true ↔ d = c) → raw T r = lb1 c (T.mark r)) ∧
    ((∀ d, T.is d r = false) → raw T r = .AL) := by
  unfold raw classForRune
  rw [if_neg hr]
  constructor
  · intro c hc h
    have hm : c ∈ tabled := by
      cases c <;> first | decide | exact absurd (by decide) hc
    have hf : tabled.find? (fun d => T.is d r) = some c := by
      cases e : tabled.find? (fun d => T.is d r) with
      | none => exact absurd ((h c).mpr rfl) (List.find?_eq_none.mp e c hm)
      | some d => rw [(h d).mp (by simpa using List.find?_some e)]
    rw [hf, Option.getD_some]
    cases c <;> cases e : T.mark r <;> simp [resolve, lb1, e]
  · intro h
    rw [List.find?_eq_none.mpr (fun d _ => by simp [h d])]
    rfl

example : raw { is := fun c r => c == .SA && r == 3633 || c == .CJ && r == 12353, mark := fun r => r == 3633 } 3633 = .CM ∧
    raw { is := fun c r => c == .SA && r == 3633 || c == .CJ && r == 12353, mark := fun r => r == 3633 } 12353 = .NS := by decide

/-- The segments of a text, for reader input, are the lines that result from `lBoundary false`: the
rules of UAX#14 without LB8a and with a simplified treatment of combining marks. The text has no NUL
and fits into the output buffer, for which see C09. The breaker is new or has processed complete texts. -/
theorem C29_lines_near_partial (T : LTables) (past : List Int) (hp : CompletePast past) {s : Seg LBrk}
    (hr : Reachable (breaker T) s) (hb : s.brk = [(breaker T).run Line.new past]) (src : List (Int × Nat))
    (ht : ∀ x ∈ src, x.1 ≠ 0) (hlen : src.length ≤ s.room) (n : Nat) (hn : src.length + 1 < n) :
    ∃ segs, (s.initReader src none).collect (breaker T) n = some (segs, true) ∧
      segs.map (·.runes) = lines false (raw T) (src.map (·.1)) := by
  have h := past_rep T past hp
  have ht' : ∀ x ∈ src.map (·.1), x ≠ 0 := by
    intro x hx
    obtain ⟨y, hy, rfl⟩ := List.mem_map.mp hx
    exact ht y hy
  have hl : (src.map (·.1)).length = src.length := List.length_map _
  obtain ⟨segs, h1, h2⟩ := collect_reader_cutAfter (breaker T) hr src n (cutS false (raw T) (src.map (·.1)))
    (by rw [hb]; have := line_steady (T := T) h (src.map (·.1)) ht' s.zero0 s.zero1; rw [hl] at this; exact this)
    (by
      intro i hi
      rw [hb]
      have := line_cut (T := T) h (src.map (·.1)) ht' s.zero0 s.zero1 i (by rw [hl]; exact hi)
      rw [cut_text T _ ht' i (by rw [hl]; exact hi), hl] at this
      exact this)
    (by rw [hb]; have := line_mark (T := T) h (src.map (·.1)) s.zero0 s.zero1; rw [hl] at this; exact this) hn
  exact ⟨segs, h1, by rw [h2, lines_eq, cutAfter_take _ _ _ (by rw [hl]; exact hlen)]⟩

/-- Slice input, of any length. -/
theorem C29_slice_lines_near_partial (T : LTables) (past : List Int) (hp : CompletePast past) {s : Seg LBrk}
    (hr : Reachable (breaker T) s) (hb : s.brk = [(breaker T).run Line.new past]) (text : List Int)
    (ht : ∀ x ∈ text, x ≠ 0) (n : Nat) (hn : text.length + 1 < n) :
    ∃ segs, (s.initSlice text).collect (breaker T) n = some (segs, true) ∧
      segs.map (·.runes) = lines false (raw T) text := by
  have h := past_rep T past hp
  exact collect_slice_cutAfter (breaker T) hr text n (cutS false (raw T) text)
    (by rw [hb]; exact line_steady (T := T) h text ht s.zero0 s.zero1)
    (by
      intro i hi
      rw [hb]
      have := line_cut (T := T) h text ht s.zero0 s.zero1 i hi
      rw [cut_text T _ ht i hi] at this
      exact this)
    (by rw [hb]; exact line_mark (T := T) h text s.zero0 s.zero1) hn

/-- Texts in which the exceptions do not occur: a ZWJ is only followed by a combining mark, a ZWJ, a
space or a newline, and no combining mark or ZWJ directly follows a character of the classes OP, HY, BA, CL, CP or RI. -/
def PlainLines (T : LTables) (text : List Int) : Prop :=
  ∀ (i : Nat) x y, text[i]? = some x → text[i + 1]? = some y →
    (raw T x = .ZWJ → raw T y ∈ [LClass.CM, .ZWJ, .BK, .CR, .LF, .NL, .SP, .ZW]) ∧
    (raw T y ∈ [LClass.CM, .ZWJ] → raw T x ∉ [LClass.OP, .HY, .BA, .CL, .CP, .RI])

namespace Line

theorem plain_pair {T : LTables} {text : List Int} (h : PlainLines T text) (i : Nat) (hi : i + 1 < text.length) :
    plainPair (raw T text[i]) (raw T text[i + 1]) = true := by
  obtain ⟨h1, h2⟩ := h i _ _ (List.getElem?_eq_getElem (by omega)) (List.getElem?_eq_getElem hi)
  unfold plainPair mark
  rw [Bool.and_eq_true]
  constructor
  · by_cases hz : raw T text[i] = .ZWJ
    · have := h1 hz
      simp only [List.mem_cons, List.not_mem_nil, or_false] at this ⊢
      simp only [Bool.or_eq_true, decide_eq_true_eq]
      tauto
    · simp [hz]
  · by_cases hm : raw T text[i + 1] ∈ [LClass.CM, .ZWJ]
    · rw [decide_eq_true (h2 hm), Bool.or_true]
    · rw [decide_eq_false hm]; rfl

theorem plain_chain {T : LTables} {text : List Int} (h : PlainLines T text) :
    ∀ i, i ≤ text.length → (((text.take i).map (raw T)).reverse).IsChain fun y x => plainPair x y = true := by
  intro i
  induction i with
  | zero => intro _; exact List.IsChain.nil
  | succ i ih =>
    intro hi
    rw [bef_eq (raw T) text i hi]
    have := ih (by omega)
    cases i with
    | zero => exact List.IsChain.singleton _
    | succ i =>
      rw [bef_eq (raw T) text i (by omega)] at this ⊢
      exact List.IsChain.cons_cons (plain_pair h i hi) this

theorem lines_plain {T : LTables} {text : List Int} (h : PlainLines T text) : lines false (raw T) text = lines true (raw T) text := by
  rw [lines_eq, lines_eq]
  unfold cutAfter
  congr 2
  apply List.ext_getElem?
  intro i
  rw [List.getElem?_mapIdx, List.getElem?_mapIdx]
  cases hx : text[i]? with
  | none => rfl
  | some x =>
    have hi := (List.getElem?_eq_some_iff.mp hx).1
    simp only [Option.map_some, Option.some.injEq, Prod.mk.injEq, true_and]
    have hc := plain_chain h (i + 1) hi
    unfold cutS
    rw [bef_eq (raw T) text i hi] at hc ⊢
    by_cases hj : i + 1 < text.length
    · rw [List.drop_eq_getElem_cons hj, List.map_cons]
      refine (boundary_same _ _ _ _ hc (plain_pair h i hj) ?_).symm
      intro y hy
      rw [List.head?_map, List.head?_drop] at hy
      obtain ⟨z, hz, rfl⟩ := Option.map_eq_some_iff.mp hy
      have hk := (List.getElem?_eq_some_iff.mp hz).1
      have hz' := (List.getElem?_eq_some_iff.mp hz).2
      have := plain_pair h (i + 1) hk
      rw [hz'] at this
      exact this
    · rw [List.drop_of_length_le (show text.length ≤ i + 1 by omega)]; rfl

end Line

/-- All other texts are segmented exactly as UAX#14 wants it (reader input). -/
theorem C29_lines_partial (T : LTables) (past : List Int) (hp : CompletePast past) {s : Seg LBrk}
    (hr : Reachable (breaker T) s) (hb : s.brk = [(breaker T).run Line.new past]) (src : List (Int × Nat))
    (ht : ∀ x ∈ src, x.1 ≠ 0) (hlen : src.length ≤ s.room) (n : Nat) (hn : src.length + 1 < n) (hw : PlainLines T (src.map (·.1))) :
    ∃ segs, (s.initReader src none).collect (breaker T) n = some (segs, true) ∧
      segs.map (·.runes) = lines true (raw T) (src.map (·.1)) := by
  rw [← lines_plain hw]
  exact C29_lines_near_partial T past hp hr hb src ht hlen n hn

/-- The same for slices. -/
theorem C29_slice_lines_partial (T : LTables) (past : List Int) (hp : CompletePast past) {s : Seg LBrk}
    (hr : Reachable (breaker T) s) (hb : s.brk = [(breaker T).run Line.new past]) (text : List Int)
    (ht : ∀ x ∈ text, x ≠ 0) (n : Nat) (hn : text.length + 1 < n) (hw : PlainLines T text) :
    ∃ segs, (s.initSlice text).collect (breaker T) n = some (segs, true) ∧
      segs.map (·.runes) = lines true (raw T) text := by
  rw [← lines_plain hw]
  exact C29_slice_lines_near_partial T past hp hr hb text ht n hn

/-- All of the text is delivered. -/
theorem C29_lines_cover_text (std : Bool) (cl : Int → LClass) (text : List Int) : (lines std cl text).flatten = text := by
  rw [lines_eq]
  apply cutAfter_flatten
  intro i hi
  unfold cutS
  rw [List.drop_of_length_le (by omega), bef_eq cl text i (by omega)]
  rfl

/-- Tables for examples: one rune for each class. -/
def numLines : LTables := ⟨fun c r => r == c.num + 100, fun _ => false⟩

/-- The runes of the example tables. -/
def runesOf (cs : List LClass) : List Int := cs.map fun c => c.num + 100

/-- Segment an example text. -/
def exampleLines (cs : List LClass) : Option (List (List Int)) :=
  (((Seg.new [Line.new]).initSlice (runesOf cs)).collect (breaker numLines) (cs.length + 2)).map (·.1.map (·.runes))

/-- Five texts that are not cut according to UAX#14: there is a break after ZWJ (LB8a); marks
disturb the pairing of flags (LB30a), the number patterns (LB25, twice) and the rule for
hyphens after Hebrew letters (LB21a). -/
theorem C29_violated :
    (exampleLines [.ZWJ, .ID] = some [runesOf [.ZWJ], runesOf [.ID]] ∧
      lines true (raw numLines) (runesOf [.ZWJ, .ID]) = [runesOf [.ZWJ, .ID]]) ∧
    (exampleLines [.RI, .RI, .CM, .RI] = some [runesOf [.RI, .RI, .CM, .RI]] ∧
      lines true (raw numLines) (runesOf [.RI, .RI, .CM, .RI]) = [runesOf [.RI, .RI, .CM], runesOf [.RI]]) ∧
    (exampleLines [.PR, .OP, .CM, .NU] = some [runesOf [.PR], runesOf [.OP, .CM, .NU]] ∧
      lines true (raw numLines) (runesOf [.PR, .OP, .CM, .NU]) = [runesOf [.PR, .OP, .CM, .NU]]) ∧
    (exampleLines [.NU, .CL, .CM, .PO] = some [runesOf [.NU, .CL, .CM], runesOf [.PO]] ∧
      lines true (raw numLines) (runesOf [.NU, .CL, .CM, .PO]) = [runesOf [.NU, .CL, .CM, .PO]]) ∧
    (exampleLines [.HL, .HY, .CM, .AL] = some [runesOf [.HL, .HY, .CM], runesOf [.AL]] ∧
      lines true (raw numLines) (runesOf [.HL, .HY, .CM, .AL]) = [runesOf [.HL, .HY, .CM, .AL]]) := by decide +kernel

/-- Words, a number with currency and parentheses, spaces, an opening bracket with spaces, CR LF. -/
example : lines true (raw numLines) (runesOf [.AL, .CM, .AL, .SP, .PR, .OP, .NU, .IS, .NU, .CP, .PO, .SP, .SP, .OP, .SP, .ID, .ID, .CR, .LF, .SP]) =
    [runesOf [.AL, .CM, .AL, .SP], runesOf [.PR, .OP, .NU, .IS, .NU, .CP, .PO, .SP, .SP], runesOf [.OP, .SP, .ID], runesOf [.ID, .CR, .LF], runesOf [.SP]] := by
  decide +kernel

example : exampleLines [.AL, .CM, .SP, .PR, .OP, .NU, .SP] = some [runesOf [.AL, .CM, .SP], runesOf [.PR, .OP, .NU, .SP]] := by decide +kernel

/-- The hypotheses of C29 can be met. -/
example : Reachable (breaker numLines) (Seg.new [Line.new]) ∧ (Seg.new [Line.new]).brk = [(breaker numLines).run Line.new []] ∧
    CompletePast [] := ⟨Reachable.new _, rfl, Or.inl rfl⟩

example : PlainLines numLines (runesOf [.AL, .CM, .ZWJ, .CM, .SP, .PR, .OP, .NU, .ZWJ, .SP]) := by
  intro i x y hx hy
  match i with
  | 0 | 1 | 2 | 3 | 4 | 5 | 6 | 7 | 8 =>
    simp only [runesOf, List.map_cons, List.getElem?_cons_succ, List.getElem?_cons_zero, Option.some.injEq] at hx hy
    subst hx; subst hy
    exact of_decide_eq_true rfl
  | n + 9 =>
    simp [runesOf] at hy

/-! ### C27 -/

namespace Line

/-- The boundary after rune `i` in terms of the classes of the runes next to it. -/
theorem cut_at (T : LTables) (text : List Int) (i : Nat) (hi : i + 1 < text.length) :
    cutS false (raw T) text i = lBoundary false (raw T text[i] :: ((text.take i).map (raw T)).reverse) (raw T text[i + 1] :: (text.drop (i + 2)).map (raw T)) := by
  unfold cutS
  rw [bef_eq (raw T) text i (by omega), List.drop_eq_getElem_cons hi, List.map_cons]

theorem repeated_not {c : LClass} (hc : mark c = false) (h : List LClass) : repeated (c :: h) = c :: repeated h := by
  rw [repeated, hc]; rfl

theorem alone_cons {c : LClass} (hc : mark c = false) (h : List LClass) : alone (repeated (c :: h)) = decide (c ∈ [LClass.BK, .CR, .LF, .NL, .SP, .ZW]) := by
  rw [repeated_not hc]; rfl

/-- After a newline. -/
theorem cut_newline {a d : LClass} (ha : a ∈ newlines) (bef aft : List LClass) :
    lBoundary false (a :: bef) (d :: aft) = decide (¬ (a = .CR ∧ d = .LF)) := by
  have hm : mark a = false := real_not_mark (newline_real ha).1
  unfold lBoundary
  simp only [Bool.false_eq_true, if_false]
  rw [alone_cons hm, allowed_eq, repeated_not hm]
  have hal : a ∈ [LClass.BK, .CR, .LF, .NL, .SP, .ZW] := by
    revert ha; unfold newlines; cases a <;> decide
  rw [decide_eq_true hal, if_neg (by simp), List.headD_cons]
  unfold allowedQ
  revert ha
  unfold newlines
  cases a <;> intro ha <;> first
    | exact absurd ha (by decide)
    | (simp; done)
    | (simp only [List.mem_cons, List.not_mem_nil, or_false, reduceCtorEq, if_false, if_true, true_and]
       cases hmd : mark d with
       | true =>
         have : d ≠ .LF := by rintro rfl; cases hmd
         simp [this]
       | false => simp)

end Line

/-- Break after BK, LF, NL, after CR unless an LF follows, and at the end of the text, and never between CR and LF. -/
def MandatoryBreaks (cl : Int → LClass) (text : List Int) (cut : Nat → Bool) : Prop :=
  (∀ (i : Nat) x, text[i]? = some x → cl x ∈ [LClass.BK, .LF, .NL] → cut i = true) ∧
  (∀ (i : Nat) x, text[i]? = some x → cl x = .CR → (∀ y, text[i + 1]? = some y → cl y ≠ .LF) → cut i = true) ∧
  (∀ (i : Nat) x y, text[i]? = some x → text[i + 1]? = some y → cl x = .CR → cl y = .LF → cut i = false) ∧
  (∀ i, i + 1 = text.length → cut i = true)

namespace Line

theorem mandatory (T : LTables) (text : List Int) : MandatoryBreaks (raw T) text (cutS false (raw T) text) := by
  have hend : ∀ i, i + 1 = text.length → cutS false (raw T) text i = true := by
    intro i hi
    unfold cutS
    rw [List.drop_of_length_le (by omega), bef_eq (raw T) text i (by omega)]
    rfl
  have key : ∀ i x, text[i]? = some x → raw T x ∈ newlines → (∀ y, text[i + 1]? = some y → ¬ (raw T x = .CR ∧ raw T y = .LF)) →
      cutS false (raw T) text i = true := by
    intro i x hx hn hy
    have hi := (List.getElem?_eq_some_iff.mp hx).1
    have hx' := (List.getElem?_eq_some_iff.mp hx).2
    by_cases hj : i + 1 < text.length
    · rw [cut_at T text i hj, hx', cut_newline hn, decide_eq_true_eq]
      exact hy _ (List.getElem?_eq_getElem hj)
    · exact hend i (by omega)
  refine ⟨?_, ?_, ?_, hend⟩
  · intro i x hx hc
    refine key i x hx ?_ ?_
    · revert hc; generalize raw T x = a; unfold newlines; cases a <;> decide
    · rintro y _ ⟨h, _⟩; rw [h] at hc; revert hc; decide
  · intro i x hx hc hy
    refine key i x hx (by rw [hc]; decide) ?_
    rintro y h1 ⟨_, h2⟩
    exact hy y h1 h2
  · intro i x y hx hy hcx hcy
    have hx' := (List.getElem?_eq_some_iff.mp hx).2
    obtain ⟨hj, hy'⟩ := List.getElem?_eq_some_iff.mp hy
    rw [cut_at T text i hj, hx', hy', cut_newline (by rw [hcx]; decide), decide_eq_false_iff_not, not_not]
    exact ⟨hcx, hcy⟩

end Line

/-- Mandatory breaks are made (slice input). The size of the penalties is missing, see `C27_penalties_partial`. -/
theorem C27_mandatory_breaks_partial (T : LTables) (past : List Int) (hp : CompletePast past) {s : Seg LBrk}
    (hr : Reachable (breaker T) s) (hb : s.brk = [(breaker T).run Line.new past]) (text : List Int)
    (ht : ∀ x ∈ text, x ≠ 0) (n : Nat) (hn : text.length + 1 < n) :
    ∃ segs cut, (s.initSlice text).collect (breaker T) n = some (segs, true) ∧ segs.map (·.runes) = cutAfter cut text ∧
      MandatoryBreaks (raw T) text cut := by
  obtain ⟨segs, h1, h2⟩ := C29_slice_lines_near_partial T past hp hr hb text ht n hn
  exact ⟨segs, _, h1, h2, mandatory T text⟩

/-- The same for readers. -/
theorem C27_reader_mandatory_breaks_partial (T : LTables) (past : List Int) (hp : CompletePast past) {s : Seg LBrk}
    (hr : Reachable (breaker T) s) (hb : s.brk = [(breaker T).run Line.new past]) (src : List (Int × Nat))
    (ht : ∀ x ∈ src, x.1 ≠ 0) (hlen : src.length ≤ s.room) (n : Nat) (hn : src.length + 1 < n) :
    ∃ segs cut, (s.initReader src none).collect (breaker T) n = some (segs, true) ∧ segs.map (·.runes) = cutAfter cut (src.map (·.1)) ∧
      MandatoryBreaks (raw T) (src.map (·.1)) cut := by
  obtain ⟨segs, h1, h2⟩ := C29_lines_near_partial T past hp hr hb src ht hlen n hn
  exact ⟨segs, _, h1, h2, mandatory T _⟩

/-- The penalties of mandatory breaks: at most -9000 after CR and after CR LF; after other
newlines only if the following character does not resist, and at most -8800 unless it resists absolutely. The
segments are those of a list of places `pl`, one for each rune. -/
theorem C27_penalties_partial (T : LTables) (past : List Int) (hp : CompletePast past) {s : Seg LBrk}
    (hr : Reachable (breaker T) s) (hb : s.brk = [(breaker T).run Line.new past]) (text : List Int)
    (ht : ∀ x ∈ text, x ≠ 0) (n : Nat) (hn : text.length + 1 < n) :
    ∃ pl, (s.initSlice text).collect (breaker T) n = some (segmentsOf pl, true) ∧ pl.map (·.r) = text ++ [0] ∧
      ∀ i x y, text[i]? = some x → text[i + 1]? = some y → raw T x ∈ [LClass.BK, .LF, .NL, .CR] → ¬ (raw T x = .CR ∧ raw T y = .LF) →
        ∃ p, pl[i]? = some p ∧ p.cut = true ∧ p.p0 ≤ 1000 ∧
          (raw T y ∉ [LClass.BK, .CR, .LF, .NL, .SP, .ZW] → p.p0 ≤ -8800) ∧
          (raw T x = .CR ∨ (raw T x = .LF ∧ 0 < i ∧ text[i - 1]?.map (raw T) = some .CR) ∨
            (raw T y ∉ [LClass.BK, .CR, .LF, .NL, .SP, .ZW] ∧ raw T y ∉ [LClass.BA, .HY, .NS, .QU, .GL, .WJ, .CL, .CP, .EX, .IS, .SY]) → p.p0 ≤ -9000) := by
  have h := past_rep T past hp
  refine ⟨placesEarly (breaker T) s.brk s.zero0 s.zero1 text, ?_, ?_, ?_⟩
  · refine collect_slice_early (breaker T) hr text n (by rw [hb]; exact line_steady (T := T) h text ht s.zero0 s.zero1) ?_ hn
    intro p hpl
    have := placesEarly_cut (breaker T) s.brk s.zero0 s.zero1 text text.length (Nat.le_refl _)
    rw [hpl, hb, Option.map_some, Option.some.injEq] at this
    rw [this]
    rw [show decide (1 < [(breaker T).run Line.new past].length) = false from rfl, line_mark (T := T) h text s.zero0 s.zero1]
    rfl
  · apply List.ext_getElem?
    intro i
    unfold placesEarly
    simp only
    rw [List.getElem?_map, List.getElem?_mapIdx]
    cases (text ++ [0])[i]? with
    | none => rfl
    | some r =>
      simp only [Option.map_some, Option.some.injEq]
      split <;> rfl
  · intro i x y hx hy hn hcr
    obtain ⟨hi, hx'⟩ := List.getElem?_eq_some_iff.mp hx
    obtain ⟨hj, hy'⟩ := List.getElem?_eq_some_iff.mp hy
    subst hx' hy'
    obtain ⟨p, h1, _, h2⟩ := newline_pen (T := T) h text ht s.zero0 s.zero1 i hj hn hcr
    rw [hb]
    exact ⟨p, h1, h2⟩

/-- Mandatory breaks whose penalties are above -9000, or even positive: LF SP gives 1000, LF WJ -8810. -/
theorem C27_violated :
    (((Seg.new [Line.new]).initSlice (runesOf [.LF, .SP])).collect (breaker numLines) 4).map (·.1) =
      some [⟨runesOf [.LF], (1000, 0)⟩, ⟨runesOf [.SP], (-19030, 0)⟩] ∧
    (((Seg.new [Line.new]).initSlice (runesOf [.LF, .WJ])).collect (breaker numLines) 4).map (·.1) =
      some [⟨runesOf [.LF], (-8810, 0)⟩, ⟨runesOf [.WJ], (-8810, 0)⟩] := by decide +kernel

example : exampleLines [.AL, .LF, .CR, .LF, .CR, .AL, .BK, .CM] = some [runesOf [.AL, .LF], runesOf [.CR, .LF], runesOf [.CR], runesOf [.AL, .BK], runesOf [.CM]] := by
  decide +kernel

/-! ### C28 -/

/-- Positions where breaks are prohibited. `before` is the text before the position, nearest rune
first, and ends with a rune of class `x` that is not a newline; `y` is the class of the next rune. -/
def Prohibited (cl : Int → LClass) (text : List Int) (cut : Nat → Bool) : Prop :=
  ∀ (i : Nat) u v x y, text[i]? = some u → text[i + 1]? = some v → cl u = x → cl v = y → x ∉ [LClass.BK, .CR, .LF, .NL] →
    let before := ((text.take (i + 1)).map cl).reverse
    (y ∈ [LClass.BK, .CR, .LF, .NL, .SP, .ZW] → cut i = false) ∧                                                         -- LB6, LB7
    (beforeSpaces before ≠ .ZW →
      (y = .WJ ∨ x = .WJ → cut i = false) ∧                                                                              -- LB11
      (y ∈ [LClass.CL, .CP, .EX, .IS, .SY] → cut i = false) ∧                                                            -- LB13
      (((before.dropWhile (· == .SP)).dropWhile fun c => decide (c ∈ [LClass.CM, .ZWJ])).head? = some .OP → cut i = false)) ∧ -- LB14
    (y ∈ [LClass.CM, .ZWJ] → x ∉ [LClass.SP, .ZW] → cut i = false)                                                       -- LB9

namespace Line

theorem rep_head (c : LClass) (h : List LClass) : ∃ a, (repeated (c :: h)).head? = some a ∧ (mark c = false → a = c) ∧
    (mark c = true → a ∉ [LClass.BK, .CR, .LF, .NL, .SP, .ZW]) := by
  cases hm : mark c with
  | false => exact ⟨c, by rw [repeated_not hm]; rfl, fun _ => rfl, fun h => nomatch h⟩
  | true =>
    refine ⟨if alone (repeated h) then .AL else (repeated h).headD .AL, by simp only [repeated, hm, if_true]; rfl, (fun h => nomatch h), fun _ => ?_⟩
    by_cases ha : alone (repeated h) = true
    · rw [if_pos ha]; decide
    · rw [if_neg ha]
      cases hr : repeated h with
      | nil => rw [hr] at ha; exact absurd rfl ha
      | cons a l =>
        rw [hr] at ha
        unfold alone at ha
        simpa using ha

theorem rep_zw (h : List LClass) : beforeSpaces (repeated h) = .ZW → beforeSpaces h = .ZW := by
  induction h with
  | nil => exact id
  | cons c h ih =>
    cases hm : mark c with
    | false =>
      rw [repeated_not hm, spaces_cons, spaces_cons]
      split
      · exact ih
      · exact id
    | true =>
      obtain ⟨a, h1, _, h2⟩ := rep_head c h
      intro hz
      exfalso
      cases hr : repeated (c :: h) with
      | nil => rw [hr] at h1; cases h1
      | cons a' l =>
        rw [hr, List.head?_cons, Option.some.injEq] at h1
        subst h1
        rw [hr, spaces_cons] at hz
        have h2 := h2 hm
        split at hz
        · rename_i e; rw [e] at h2; exact h2 (by decide)
        · rw [hz] at h2; exact h2 (by decide)

theorem rep_marks_op (h : List LClass) : (h.dropWhile mark).head? = some .OP → (repeated h).head? = some .OP := by
  induction h with
  | nil => exact id
  | cons c h ih =>
    cases hm : mark c with
    | false =>
      rw [List.dropWhile_cons_of_neg (by rw [hm]; decide), repeated_not hm]
      exact id
    | true =>
      rw [List.dropWhile_cons_of_pos hm]
      intro h1
      have := ih h1
      cases hr : repeated h with
      | nil => rw [hr] at this; cases this
      | cons a l =>
        rw [hr, List.head?_cons, Option.some.injEq] at this
        subst this
        rw [repeated, hm, if_pos rfl, hr]
        rfl

theorem rep_op (h : List LClass) : ((h.dropWhile (· == .SP)).dropWhile mark).head? = some .OP → beforeSpaces (repeated h) = .OP := by
  induction h with
  | nil => intro h; cases h
  | cons c h ih =>
    by_cases hc : c = .SP
    · subst hc
      rw [List.dropWhile_cons_of_pos (by rfl), repeated_not rfl, spaces_cons, if_pos rfl]
      exact ih
    · rw [List.dropWhile_cons_of_neg (by simpa using hc)]
      intro h1
      have := rep_marks_op _ h1
      cases hr : repeated (c :: h) with
      | nil => rw [hr] at this; cases this
      | cons a l =>
        rw [hr, List.head?_cons, Option.some.injEq] at this
        subst this
        rw [spaces_cons]; rfl

theorem not_then {p : Prop} [Decidable p] {x : Bool} (h : ¬ p → x = false) : (if p then false else x) = false := by
  by_cases hp : p
  · rw [if_pos hp]
  · rw [if_neg hp]; exact h hp

section
variable {hl q o : Bool} {a b d : LClass} (ha : a ∉ [LClass.BK, .CR, .LF, .NL])
include ha

theorem not_newline : a ∉ [LClass.BK, .LF, .NL] ∧ a ≠ .CR := by
  simp only [List.mem_cons, List.not_mem_nil, or_false, not_or] at ha ⊢
  exact ⟨⟨ha.1, ha.2.2.1, ha.2.2.2⟩, ha.2.1⟩

theorem allowedQ_lb67 (hd : d ∈ [LClass.BK, .CR, .LF, .NL, .SP, .ZW]) : allowedQ hl q o a b d = false := by
  unfold allowedQ
  rw [if_neg (not_newline ha).1, if_neg (not_newline ha).2]
  refine not_then fun h => ?_
  rw [if_pos]
  simp only [List.mem_cons, List.not_mem_nil, or_false, not_or] at hd h ⊢
  tauto

theorem allowedQ_lb11 (hb : b ≠ .ZW) (hd : d = .WJ ∨ a = .WJ) : allowedQ hl q o a b d = false := by
  unfold allowedQ
  rw [if_neg (not_newline ha).1, if_neg (not_newline ha).2]
  refine not_then fun _ => not_then fun _ => ?_
  rw [if_neg hb, if_pos hd]

theorem allowedQ_lb13 (hb : b ≠ .ZW) (hd : d ∈ [LClass.CL, .CP, .EX, .IS, .SY]) : allowedQ hl q o a b d = false := by
  unfold allowedQ
  rw [if_neg (not_newline ha).1, if_neg (not_newline ha).2]
  refine not_then fun _ => not_then fun _ => ?_
  rw [if_neg hb]
  refine not_then fun _ => not_then fun _ => not_then fun _ => ?_
  rw [if_pos hd]

theorem allowedQ_lb14 (hb : b = .OP) : allowedQ hl q o a b d = false := by
  unfold allowedQ
  rw [if_neg (not_newline ha).1, if_neg (not_newline ha).2]
  refine not_then fun _ => not_then fun _ => ?_
  rw [if_neg (by rw [hb]; decide)]
  refine not_then fun _ => not_then fun _ => not_then fun _ => not_then fun _ => ?_
  rw [if_pos hb]

end

theorem prohibited (T : LTables) (text : List Int) : Prohibited (raw T) text (cutS false (raw T) text) := by
  intro i u v x y hu hv hx hy hnl
  obtain ⟨hi, hu'⟩ := List.getElem?_eq_some_iff.mp hu
  obtain ⟨hj, hv'⟩ := List.getElem?_eq_some_iff.mp hv
  subst hu' hv'
  rw [cut_at T text i hj]
  have hbe := bef_eq (raw T) text i (by omega)
  rw [hbe, hx, hy]
  generalize ((text.take i).map (raw T)).reverse = bef
  generalize (text.drop (i + 2)).map (raw T) = aft
  obtain ⟨a, h1, h2, h3⟩ := rep_head x bef
  have ha : a ∉ [LClass.BK, .CR, .LF, .NL] := by
    cases hm : mark x with
    | false => rw [h2 hm]; exact hnl
    | true =>
      have := h3 hm
      simp only [List.mem_cons, List.not_mem_nil, or_false, not_or] at this ⊢
      tauto
  have hh : (repeated (x :: bef)).headD .sot = a := by
    cases hr : repeated (x :: bef) with
    | nil => rw [hr] at h1; cases h1
    | cons c l => rw [hr] at h1; exact Option.some.inj h1
  have hal : alone (repeated (x :: bef)) = decide (a ∈ [LClass.BK, .CR, .LF, .NL, .SP, .ZW]) := by
    cases hr : repeated (x :: bef) with
    | nil => rw [hr] at h1; cases h1
    | cons c l => rw [hr] at h1; cases h1; rfl
  have hz := rep_zw (x :: bef)
  have ho := rep_op (x :: bef)
  unfold lBoundary
  simp only [Bool.false_eq_true, if_false]
  rw [allowed_eq, hh, hal]
  refine ⟨?_, ?_, ?_⟩
  · intro hy
    have hm : mark y = false := by revert hy; cases y <;> decide
    rw [hm, if_neg (fun h => nomatch h.1)]
    exact allowedQ_lb67 ha hy
  · intro hbz
    have hbz : beforeSpaces (repeated (x :: bef)) ≠ .ZW := fun h => hbz (hz h)
    refine ⟨?_, ?_, ?_⟩
    · intro hw
      split
      · rfl
      · refine allowedQ_lb11 ha hbz ?_
        rcases hw with rfl | rfl
        · exact Or.inl rfl
        · exact Or.inr (h2 rfl)
    · intro hy
      have hm : mark y = false := by revert hy; cases y <;> decide
      rw [hm, if_neg (fun h => nomatch h.1)]
      exact allowedQ_lb13 ha hbz hy
    · intro hop
      split
      · rfl
      · exact allowedQ_lb14 ha (ho hop)
  · intro hy hxs
    have hm : mark y = true := decide_eq_true hy
    refine if_pos ⟨hm, decide_eq_false ?_⟩
    cases hmx : mark x with
    | true => exact h3 hmx
    | false =>
      rw [h2 hmx]
      simp only [List.mem_cons, List.not_mem_nil, or_false, not_or] at hnl hxs ⊢
      tauto

end Line

/-- Prohibited breaks are never offered (slice input). -/
theorem C28_prohibited_breaks (T : LTables) (past : List Int) (hp : CompletePast past) {s : Seg LBrk}
    (hr : Reachable (breaker T) s) (hb : s.brk = [(breaker T).run Line.new past]) (text : List Int)
    (ht : ∀ x ∈ text, x ≠ 0) (n : Nat) (hn : text.length + 1 < n) :
    ∃ segs cut, (s.initSlice text).collect (breaker T) n = some (segs, true) ∧ segs.map (·.runes) = cutAfter cut text ∧
      Prohibited (raw T) text cut := by
  obtain ⟨segs, h1, h2⟩ := C29_slice_lines_near_partial T past hp hr hb text ht n hn
  exact ⟨segs, _, h1, h2, prohibited T text⟩

/-- The same for readers. -/
theorem C28_reader_prohibited_breaks (T : LTables) (past : List Int) (hp : CompletePast past) {s : Seg LBrk}
    (hr : Reachable (breaker T) s) (hb : s.brk = [(breaker T).run Line.new past]) (src : List (Int × Nat))
    (ht : ∀ x ∈ src, x.1 ≠ 0) (hlen : src.length ≤ s.room) (n : Nat) (hn : src.length + 1 < n) :
    ∃ segs cut, (s.initReader src none).collect (breaker T) n = some (segs, true) ∧ segs.map (·.runes) = cutAfter cut (src.map (·.1)) ∧
      Prohibited (raw T) (src.map (·.1)) cut := by
  obtain ⟨segs, h1, h2⟩ := C29_lines_near_partial T past hp hr hb src ht hlen n hn
  exact ⟨segs, _, h1, h2, prohibited T _⟩

example : exampleLines [.ID, .SP, .ZW, .SP, .WJ, .ID] = some [runesOf [.ID, .SP, .ZW, .SP], runesOf [.WJ, .ID]] := by decide +kernel
example : exampleLines [.ID, .SP, .WJ, .ID, .OP, .CM, .SP, .ID] = some [runesOf [.ID, .SP, .WJ, .ID], runesOf [.OP, .CM, .SP, .ID]] := by decide +kernel

/-! ### C24 -/

namespace Line

theorem line_flags (cl : Int → LClass) (text : List Int) (i : Nat)
    (hi : i = 0 ∨ ∃ x, text[i - 1]? = some x ∧ cl x ∉ [LClass.RI, .CM, .ZWJ]) :
    ∀ (j : Nat), (∀ k, k < j → ∃ x, text[i + k]? = some x ∧ cl x = .RI) →
      oddFlagsMarks ((text.take (i + j)).map cl).reverse = decide (j % 2 = 1) := by
  intro j
  induction j with
  | zero =>
    intro _
    rcases hi with rfl | ⟨x, h1, h2⟩
    · rfl
    · cases i with
      | zero => rfl
      | succ i =>
        have hl := (List.getElem?_eq_some_iff.mp h1).1
        have hx := (List.getElem?_eq_some_iff.mp h1).2
        simp only [Nat.add_sub_cancel] at hl hx
        rw [Nat.add_zero, bef_eq cl text i hl, hx]
        rw [List.mem_cons, not_or] at h2
        have hm : mark (cl x) = false := decide_eq_false h2.2
        simp only [oddFlagsMarks, hm, h2.1, if_false, Bool.false_eq_true]
        rfl
  | succ j ih =>
    intro h
    obtain ⟨x, h1, h2⟩ := h j (by omega)
    have hl := (List.getElem?_eq_some_iff.mp h1).1
    have hx := (List.getElem?_eq_some_iff.mp h1).2
    rw [← Nat.add_assoc, bef_eq cl text (i + j) hl, hx, h2]
    have hm : mark LClass.RI = false := rfl
    simp only [oddFlagsMarks, hm, Bool.false_eq_true, if_false, if_true]
    rw [ih fun k hk => h k (by omega)]
    by_cases e : j % 2 = 1
    · rw [decide_eq_true e, decide_eq_false (by omega)]; rfl
    · rw [decide_eq_false e, decide_eq_true (by omega)]; rfl

end Line

/-- In each run of Regional_Indicator characters, which starts at `i` and does not follow a mark, there are
breaks after every second one and nowhere else. -/
theorem C24_lines_flags_paired (T : LTables) (past : List Int) (hp : CompletePast past) {s : Seg LBrk}
    (hr : Reachable (breaker T) s) (hb : s.brk = [(breaker T).run Line.new past]) (text : List Int)
    (ht : ∀ x ∈ text, x ≠ 0) (n : Nat) (hn : text.length + 1 < n) :
    ∃ segs cut, (s.initSlice text).collect (breaker T) n = some (segs, true) ∧ segs.map (·.runes) = cutAfter cut text ∧
      ∀ (i len : Nat), (i = 0 ∨ ∃ x, text[i - 1]? = some x ∧ raw T x ∉ [LClass.RI, .CM, .ZWJ]) →
        (∀ k, k < len → ∃ x, text[i + k]? = some x ∧ raw T x = .RI) →
        ∀ k, k + 1 < len → cut (i + k) = decide (k % 2 = 1) := by
  obtain ⟨segs, h1, h2⟩ := C29_slice_lines_near_partial T past hp hr hb text ht n hn
  refine ⟨segs, cutS false (raw T) text, h1, h2, ?_⟩
  intro i len hi hri k hk
  obtain ⟨x, hx, cx⟩ := hri k (by omega)
  obtain ⟨y, hy, cy⟩ := hri (k + 1) hk
  obtain ⟨hlx, hx'⟩ := List.getElem?_eq_some_iff.mp hx
  rw [← Nat.add_assoc] at hy
  obtain ⟨hly, hy'⟩ := List.getElem?_eq_some_iff.mp hy
  have hcount := line_flags (raw T) text i hi (k + 1) fun k' hk' => hri k' (by omega)
  rw [← Nat.add_assoc, bef_eq (raw T) text (i + k) hlx, hx', cx] at hcount
  rw [cut_at T text (i + k) hly, hx', hy', cx, cy]
  have hm : mark LClass.RI = false := rfl
  unfold lBoundary
  simp only [hm, Bool.false_eq_true, false_and, if_false]
  rw [allowed_eq, hcount, repeated_not hm, List.headD_cons, spaces_cons, if_neg (by decide)]
  have h25 : lb25 (LClass.RI :: repeated ((text.take (i + k)).map (raw T)).reverse) .RI ((text.drop (i + k + 2)).map (raw T)).head? = false := by
    unfold lb25
    simp
  rw [h25]
  by_cases e : k % 2 = 1
  · rw [decide_eq_true e, decide_eq_false (show ¬ (k + 1) % 2 = 1 by omega)]
    simp [allowedQ]
  · rw [decide_eq_false e, decide_eq_true (show (k + 1) % 2 = 1 by omega)]
    simp [allowedQ]

example : exampleLines [.AL, .RI, .RI, .RI, .RI, .RI] = some [runesOf [.AL], runesOf [.RI, .RI], runesOf [.RI, .RI], runesOf [.RI]] := by decide +kernel

/-! ### C25 -/

theorem line_verdicts_eq (T : LTables) {b b' : LBrk} (h : Rep [] b) (h' : Rep [] b') (rs : List Int) :
    verdicts (breaker T) [b] rs = verdicts (breaker T) [b'] rs := by
  apply List.ext_getElem?
  intro i
  cases hi : rs[i]? with
  | none => rw [verdicts_get, verdicts_get, hi]; rfl
  | some r =>
    have hc := sees_get T rs i (List.getElem?_eq_some_iff.mp hi).1
    obtain ⟨v, e1, ⟨l, e2, e2'⟩, e3, e4, e5⟩ := verd T h rs i _ hc
    obtain ⟨v', f1, ⟨l', f2, f2'⟩, f3, f4, f5⟩ := verd T h' rs i _ hc
    rw [e1, f1]
    have hl : v.lam = v'.lam := by rw [e2, f2, Bank.longest_unique V e2' f2' (List.Perm.refl _)]
    have hp : v.prim = v'.prim := list_ext_getD (by rw [e4, f4]) (fun j => by rw [e3, f3])
    obtain ⟨a, b, c⟩ := v
    obtain ⟨a', b', c'⟩ := v'
    simp only at hl hp e5 f5
    rw [hl, hp, e5, f5]

/-- After complete texts the breaker reacts to anything that follows like a new one. -/
theorem C25_line_breaker_like_new (T : LTables) (past : List Int) (hp : CompletePast past) (rs : List Int) :
    verdicts (breaker T) [(breaker T).run Line.new past] rs = verdicts (breaker T) [Line.new] rs :=
  line_verdicts_eq T (past_rep T past hp) new_rep rs

/-- A segmenter that was used to the end of a text delivers the lines of the next one. -/
theorem C25_line_reuse (T : LTables) (src : List (Int × Nat)) (cs : List SegCall) (s : Seg LBrk)
    (h : ((Seg.new [Line.new]).initReader src none).after (breaker T) cs = some s) (hE : s.atEOF = true)
    (text : List Int) (ht : ∀ x ∈ text, x ≠ 0) (n : Nat) (hn : text.length + 1 < n) :
    ∃ segs, (s.initSlice text).collect (breaker T) n = some (segs, true) ∧ segs.map (·.runes) = lines false (raw T) text := by
  have hr0 : Reachable (breaker T) ((Seg.new [Line.new]).initReader src none) := Reachable.reader _ _ (Reachable.new _)
  have hr := after_reachable _ cs hr0 h
  exact C29_slice_lines_near_partial T (src.map (·.1) ++ [0]) (Or.inr (by simp)) hr
    (exhausted_brk _ (Reachable.new [Line.new]) src cs h hE) text ht n hn

/-- A text that ends in the middle of a number leaves nothing behind. -/
example : CompletePast (runesOf [.PR, .OP, .NU, .IS] ++ [0]) ∧
    verdicts (breaker numLines) [(breaker numLines).run Line.new (runesOf [.PR, .OP, .NU, .IS] ++ [0])] (runesOf [.NU, .PO]) =
      verdicts (breaker numLines) [Line.new] (runesOf [.NU, .PO]) :=
  ⟨Or.inr (by simp [runesOf]), by decide +kernel⟩

end Uax
