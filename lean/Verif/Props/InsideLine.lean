import Verif.InsideLine
import Verif.Props.Inside
import Verif.Props.Line

/-! Property C76: lines are made of graphemes. -/

namespace Uax
open Seg SpecLine

/-- Two Segmenters, one for line wraps and one for graphemes, are given the same text: whatever is between two opportunities to wrap is a sequence
of graphemes, and together these are all of the graphemes. The tables of line break classes are not in /repo, so this holds for all of them, if
the text is `Wrapped`. Missing: texts with NUL, and texts that are not `Wrapped`, see below. -/
theorem C76_lines_partial (T : LTables) (text : List Int) (h0 : ∀ r ∈ text, r ≠ 0) (h : Wrapped (Graph.classOf realG) (Line.raw T) text)
    {s : Seg Line.LBrk} (hr : Reachable (Line.breaker T) s) (past : List Int) (hp : CompletePast past)
    (hb : s.brk = [(Line.breaker T).run Line.new past]) {t : Seg Graph.GBrk} (hr' : Reachable (Graph.breaker realG) t) (past' : List Int)
    (hp' : CompletePast past') (hb' : t.brk = [(Graph.breaker realG).run Graph.new past']) (n : Nat) (hn : text.length + 1 < n) :
    ∃ ls gs, (s.initSlice text).collect (Line.breaker T) n = some (ls, true) ∧ (t.initSlice text).collect (Graph.breaker realG) n = some (gs, true) ∧
      MadeOf (ls.map (·.runes)) (gs.map (·.runes)) := by
  obtain ⟨ls, e1, e2⟩ := C29_slice_lines_near_partial T past hp hr hb text h0 n hn
  obtain ⟨gs, e3, e4⟩ := C22_slice_clusters_without_GB9b_partial realG past' hp' hr' hb' text h0 n hn
  refine ⟨ls, gs, e1, e3, ?_⟩
  rw [e2, e4]
  exact lines_madeOf _ _ text h

/-- Line break classes of some characters. -/
def someLines : List (LClass × Int) := [(.AL, 0x65), (.CM, 0x301), (.SP, 0x20), (.RI, 0x1f1e9), (.RI, 0x1f1ea), (.EB, 0x1f44d), (.EM, 0x1f3fd), (.JL, 0x1100), (.JV, 0x1161), (.JT, 0x11a8),
  (.ID, 0xff76), (.NS, 0xff9e), (.CR, 0x0d), (.LF, 0x0a), (.ID, 0x2764), (.ZWJ, 0x200d)]

def someTables : LTables := ⟨fun c r => someLines.contains (c, r), fun _ => false⟩

def wrapSample : List Int := [0x65, 0x301, 0x20, 0x1f1e9, 0x1f1ea, 0x1f1e9, 0x1f44d, 0x1f3fd, 0x1100, 0x1161, 0x11a8, 0xff76, 0xff9e, 0x0d, 0x0a]

example : ((((Seg.new [Line.new]).initSlice wrapSample).collect (Line.breaker someTables) 20).map (·.1.map (·.runes)),
    (((Seg.new [Graph.new]).initSlice wrapSample).collect (Graph.breaker realG) 20).map (·.1.map (·.runes))) =
    (some [[0x65, 0x301, 0x20], [0x1f1e9, 0x1f1ea], [0x1f1e9], [0x1f44d, 0x1f3fd], [0x1100, 0x1161, 0x11a8], [0xff76, 0xff9e, 0x0d, 0x0a]],
     some [[0x65, 0x301], [0x20], [0x1f1e9, 0x1f1ea], [0x1f1e9], [0x1f44d, 0x1f3fd], [0x1100, 0x1161, 0x11a8], [0xff76, 0xff9e], [0x0d, 0x0a]]) := by decide +kernel

theorem neighbours_all {P : Int → Int → Prop} (text : List Int) (h : ∀ x ∈ text.zip text.tail, P x.1 x.2) : ∀ pre a b post, text = pre ++ a :: b :: post → P a b := by
  rintro pre a b post rfl
  have : (a, b) ∈ (pre ++ a :: b :: post).zip (pre ++ a :: b :: post).tail := by
    rw [List.mem_iff_getElem?]
    refine ⟨pre.length, ?_⟩
    rw [List.getElem?_zip_eq_some]
    simp
  exact h _ this

instance (g : GClass) (c : LClass) : Decidable (AgreeL g c) :=
  decidable_of_iff ((g = .CR → c = .CR) ∧ (g = .LF → c = .LF) ∧ (c ∈ [LClass.BK, .CR, .LF, .NL, .ZW] → g.isCtl = true) ∧ (g = .L → c = .JL) ∧ (g = .V → c = .JV) ∧
    (g = .T → c = .JT) ∧ (g = .LV → c = .H2) ∧ (g = .LVT → c = .H3) ∧ (g = .RI ↔ c = .RI))
    ⟨fun ⟨a, b, c, d, e, f, g, h, i⟩ => ⟨a, b, c, d, e, f, g, h, i⟩, fun h => ⟨h.cr, h.lf, h.ctl, h.l, h.v, h.t, h.lv, h.lvt, h.ri⟩⟩

instance (a b : LClass) : Decidable (Attached a b) := inferInstanceAs (Decidable (_ ∨ _ ∨ _ ∨ _))

theorem wrapSample_wrapped : Wrapped (Graph.classOf realG) (Line.raw someTables) wrapSample where
  classes := by decide +kernel
  attached := neighbours_all (P := fun a b => Graph.classOf realG b ∈ [GClass.Extend, .ZWJ, .SpacingMark] → (Graph.classOf realG a).isCtl = false → Attached (Line.raw someTables a) (Line.raw someTables b))
    wrapSample (by decide +kernel)
  joined := neighbours_all (P := fun a b => ¬ (Graph.classOf realG a = .ZWJ ∧ Graph.classOf realG b = .Pict)) wrapSample (by decide +kernel)
  flags := by
    intro pre x mid y post e hx hy hm
    exact tightB_tight (ri := fun r => Line.raw someTables r == .RI) (ig := fun r => mark (Line.raw someTables r)) (by
      intro z hz
      have : Line.raw someTables z = .RI := by simpa using hz
      show mark (Line.raw someTables z) = false
      rw [this]
      decide) wrapSample (by decide +kernel) pre x mid y post e (by simpa using hx) (by simpa using hy) hm

/-- An emoji of two parts with a joiner, here two hearts, is one grapheme, but may be wrapped after the joiner, contrary to UAX#14 (LB8a). -/
theorem C76_joined_violated :
    (((Seg.new [Line.new]).initSlice [0x2764, 0x200d, 0x2764]).collect (Line.breaker someTables) 6).map (·.1.map (·.runes)) = some [[0x2764, 0x200d], [0x2764]] ∧
    (((Seg.new [Graph.new]).initSlice [0x2764, 0x200d, 0x2764]).collect (Graph.breaker realG) 6).map (·.1.map (·.runes)) = some [[0x2764, 0x200d, 0x2764]] ∧
    lines true (Line.raw someTables) [0x2764, 0x200d, 0x2764] = [[0x2764, 0x200d, 0x2764]] := by decide +kernel

/-- An accent after a space: one grapheme, but the line may be wrapped between them, in accordance with UAX#14 (LB10, LB18). -/
theorem C76_space_violated :
    (((Seg.new [Line.new]).initSlice [0x20, 0x301]).collect (Line.breaker someTables) 6).map (·.1.map (·.runes)) = some [[0x20], [0x301]] ∧
    (((Seg.new [Graph.new]).initSlice [0x20, 0x301]).collect (Graph.breaker realG) 6).map (·.1.map (·.runes)) = some [[0x20, 0x301]] := by decide +kernel

/-- An accent on the first half of a flag: the halves are one grapheme or not, and the wraps pair them up differently. -/
theorem C76_flags_violated :
    (((Seg.new [Line.new]).initSlice [0x1f1e9, 0x301, 0x1f1e9, 0x1f1ea]).collect (Line.breaker someTables) 8).map (·.1.map (·.runes)) =
      some [[0x1f1e9, 0x301, 0x1f1e9], [0x1f1ea]] ∧
    (((Seg.new [Graph.new]).initSlice [0x1f1e9, 0x301, 0x1f1e9, 0x1f1ea]).collect (Graph.breaker realG) 8).map (·.1.map (·.runes)) =
      some [[0x1f1e9, 0x301], [0x1f1e9, 0x1f1ea]] := by decide +kernel

end Uax
