import Verif.Props.Segment
import Verif.SegmentFrame

/-! Properties C01, C04–C08, C10–C13 and C45 of the segmenter: histories of calls. -/

namespace Uax
open Seg

variable {β : Type} (B : Breaker β)

/-! ### Examples of breakers -/

/-- A breaker that always says the same. -/
def sayB (lam : Int) (ps : List Int) : Breaker Unit := ⟨fun _ _ => ((), lam, ps)⟩

/-- The breaker at whitespace, with U+0020 as the only white space. -/
def spaceB : Breaker SWB := SWB.breaker fun r => r == 32

/-! ### C01 -/

/-- If no breaker grants merits to the end-of-text mark, the segments delivered by `Next()` are
consecutive pieces of the text itself. -/
theorem C01_next_delivers_prefix {s : Seg β} (hr : Reachable B s) (src : List (Int × Nat)) (hp : Polite B s.brk (src.map (·.1)))
    (hlen : src.length < s.room) (n : Nat) :
    ∃ segs fin, (s.initReader src none).collect B n = some (segs, fin) ∧
      (segs.map (·.runes)).flatten <+: src.map (·.1) := by
  have hi := reachable_inv B hr
  obtain ⟨w, f, b1, b2, b3, b4, b5, _⟩ := initReader_facts B hi src none
  have hpe := initReader_pending hi src none
  obtain ⟨y, hy⟩ := todo_polite B hp w f b5 (by rw [hpe]; rfl)
  refine ⟨_, _, collect_out B n _ w f b1 b2 b3, ?_⟩
  have hl := congrArg List.length hy
  simp only [List.length_append, List.length_map] at hl
  have e : (((((s.initReader src none).todo B).take n).map (show1 (s.initReader src none).room)).map (·.runes)).flatten =
      (((s.initReader src none).todo B).take n).flatten.map (·.r) := by
    rw [List.map_map, List.map_flatten]
    congr 1
    apply List.map_congr_left
    intro seg hseg
    simp only [Function.comp, show1]
    rw [List.take_of_length_le]
    have := (List.sublist_flatten_of_mem (List.mem_of_mem_take hseg)).length_le
    rw [b4]
    simp only [List.length_map]
    omega
  rw [e]
  conv => rhs; rw [hy]
  conv => rhs; rw [← List.take_append_drop n ((s.initReader src none).todo B)]
  rw [List.flatten_append, List.map_append, List.append_assoc]
  exact List.prefix_append _ _

/-- Politeness is needed: otherwise the end-of-text mark 0 is handed out as a segment. -/
theorem C01_mark_can_be_delivered :
    ((Seg.new [()]).initReader [(97, 1)] none).history (sayB 0 [-20000]) [.next, .next, .next] = some [[97], [0]] := by
  decide +kernel

/-! ### C04 -/

/-- `Penalties()` after a successful call: the sums of everything that the primary breaker, and
that the secondary breakers, said about the position after the last rune of the segment, while
reading the runes that have been read up to now. -/
theorem C04_penalties_are_sums {s : Seg β} (hr : Reachable B s) (src : List (Int × Nat)) (fin : Option Nat)
    (hlen : src.length < s.room) (cs : List SegCall) (c : SegCall) {s1 s2 : Seg β} {segs : List (List Int)} {rs : List Int}
    (h1 : (s.initReader src fin).after B cs = some s1) (h2 : (s.initReader src fin).history B cs = some segs)
    (h3 : s1.call B c = some (s2, true)) (h4 : s2.runes = some rs) (hne : rs ≠ []) :
    ∃ text, text = src.map (·.1) ++ (if fin = none then [0] else []) ∧
    ∃ k, k ≤ text.length ∧ k + (if s2.atEOF then 0 else s2.src.length + (if fin = none then 1 else 0)) = text.length ∧
    ∃ o, o + 1 = segs.flatten.length + rs.length ∧ o < k ∧
      s2.lastP = ((if o = src.length then 10000 else 0) + total0 (verdicts B s.brk (text.take k)) o,
        (if o = src.length then 10000 else 0) + total1 (verdicts B s.brk (text.take k)) o) := by
  have hi := reachable_inv B hr
  obtain ⟨w, f, b1, b2, b3, b4, b5, b6, b7, _⟩ := initReader_facts B hi src fin
  have hal : (atomsOf (src.map (·.1)) fin).length ≤ (s.initReader src fin).room := by
    rw [b4]; simp only [atomsOf, List.length_append, List.length_map]; split <;> simp <;> omega
  obtain ⟨s', segs', o', a1, a2, a3, a4, a5, a6, a7, a8, a9, a10⟩ := hist_out B s.brk (atomsOf (src.map (·.1)) fin) cs _ 0 w b1 b2 b3 b5 hal
  rw [h1] at a1
  rw [h2] at a2
  simp only [Option.some.injEq] at a1 a2
  subst a1 a2
  have hcall : ∃ bound, s1.call B c = s1.nextB B bound := by cases c <;> exact ⟨_, rfl⟩
  obtain ⟨bound, hcall⟩ := hcall
  rw [hcall] at h3
  obtain ⟨t, ok, e, _, _, _, _, _, _, hT⟩ := nextB_trk B a6 a3 bound
  rw [h3] at e
  simp only [Option.some.injEq, Prod.mk.injEq] at e
  obtain ⟨rfl, rfl⟩ := e
  obtain ⟨m, ht', _, hbuf, hl⟩ := hT rfl
  obtain ⟨w1, w2, w3, w4, _⟩ := write_spec a7 (fun _ => a9) ((((atomsOf (src.map (·.1)) fin).drop o').take m).map (·.r))
  obtain ⟨w5, w6⟩ := w4 a8
  rw [← hbuf] at w6
  have hrs : rs = (((atomsOf (src.map (·.1)) fin).drop o').take m).map (·.r) := by
    unfold runes at h4
    rw [w6, List.take_of_length_le] at h4
    · cases h4; rfl
    · simp only [List.length_map, List.length_take, List.length_drop]
      rw [← room_eq, a10]
      omega
  have hm : m ≠ 0 := by rintro rfl; rw [hrs] at hne; simp at hne
  obtain ⟨k, a, hk1, hk2, hk3, hlp⟩ := hl hm
  have hmap : (atomsOf (src.map (·.1)) fin).map (·.r) = src.map (·.1) ++ (if fin = none then [0] else []) := by
    unfold atomsOf
    rw [List.map_append, List.map_map]
    congr 1
    · simp [Function.comp_def]
    · split <;> rfl
  have hall := congrArg List.length hmap
  rw [List.length_map] at hall
  have hsrcEnd : s2.srcEnd = fin := by
    obtain ⟨x, ok, e, _, z, _⟩ := nextB_spec B a6 bound
    rw [h3] at e
    simp only [Option.some.injEq, Prod.mk.injEq] at e
    obtain ⟨rfl, rfl⟩ := e
    rw [z]
    have : ∀ (cs : List SegCall) (x y : Seg β), WF x → x.after B cs = some y → y.srcEnd = x.srcEnd := by
      intro cs
      induction cs with
      | nil => intro x y _ h; cases h; rfl
      | cons c cs ih =>
        intro x y hx h
        have hcall : ∃ bound, x.call B c = x.nextB B bound := by cases c <;> exact ⟨_, rfl⟩
        obtain ⟨bd, hcall⟩ := hcall
        obtain ⟨x', ok, e, hx', z, _⟩ := nextB_spec B hx bd
        simp only [after, hcall, e, Option.bind_some] at h
        rw [ih x' y hx' h, z]
    rw [this cs _ _ w h1, b6]
  have hinc : s2.incoming.length = if s2.atEOF then 0 else s2.src.length + (if fin = none then 1 else 0) := by
    unfold incoming
    rw [hsrcEnd]
    split
    · rfl
    · rw [List.length_append, List.length_map]; split <;> rfl
  refine ⟨_, rfl, k, by omega, by rw [← hinc, ← hall]; exact hk2, o' + m - 1, ?_, by omega, ?_⟩
  · rw [a5, hrs]
    simp only [List.length_map, List.length_take, List.length_drop, Nat.sub_zero]
    omega
  · rcases runA_get B _ _ _ _ _ hk3 with ⟨b, hb, _⟩ | ⟨_, b, hb, rfl⟩
    · simp at hb
    · simp only [List.length_nil, Nat.sub_zero] at hb hlp
      rw [hlp, List.map_take, hmap]
      have hbp : b.p0 = (if o' + m - 1 = src.length then 10000 else 0) ∧ b.p1 = (if o' + m - 1 = src.length then 10000 else 0) := by
        rw [List.getElem?_take] at hb
        rw [if_pos (by omega)] at hb
        unfold atomsOf at hb
        rcases Nat.lt_or_ge (o' + m - 1) src.length with hlt | hge
        · rw [List.getElem?_append_left (by simpa using hlt)] at hb
          rw [if_neg (by omega)]
          simp only [List.map_map, List.getElem?_map] at hb
          cases hs : src[o' + m - 1]? with
          | none => rw [hs] at hb; cases hb
          | some z => rw [hs] at hb; cases hb; exact ⟨rfl, rfl⟩
        · rw [List.getElem?_append_right (by simpa using hge)] at hb
          split at hb
          · simp only [List.length_map] at hb
            have : o' + m - 1 - src.length = 0 := by
              rcases Nat.eq_zero_or_pos (o' + m - 1 - src.length) with h | h
              · exact h
              · rw [List.getElem?_eq_none (by simp; omega)] at hb; cases hb
            rw [this] at hb
            cases hb
            rw [if_pos (by omega)]
            exact ⟨rfl, rfl⟩
          · simp at hb
      rw [hbp.1, hbp.2]

/-! ### C05 -/

/-- Segmenting ends: with any breakers, `Next()` returns false after at most n + 1 successful
calls on a text of n runes, and every successful call delivers at least one rune. -/
theorem C05_terminates {s : Seg β} (hr : Reachable B s) (src : List (Int × Nat)) (fin : Option Nat) (hroom : 1 ≤ s.room)
    (n : Nat) (hn : src.length + 1 < n) :
    ∃ segs, (s.initReader src fin).collect B n = some (segs, true) ∧ segs.length ≤ src.length + 1 ∧
      ∀ seg ∈ segs, seg.runes ≠ [] := by
  have hi := reachable_inv B hr
  obtain ⟨w, f, b1, b2, b3, b4, _⟩ := initReader_facts B hi src fin
  have hpl : (s.initReader src fin).pending.length ≤ src.length + 1 := by
    rw [initReader_pending hi, List.length_append, List.length_map]; split <;> simp
  obtain ⟨t1, t2⟩ := todo_length B _ _ w f hpl
  refine ⟨(((s.initReader src fin).todo B).take n).map (show1 (s.initReader src fin).room), ?_, ?_, ?_⟩
  · rw [collect_out B n _ w f b1 b2 b3, decide_eq_true (by omega)]
  · simp; omega
  · intro seg hseg
    obtain ⟨x, hx, rfl⟩ := List.mem_map.mp hseg
    have := t2 x (List.mem_of_mem_take hx)
    simp only [show1, b4]
    cases x with
    | nil => exact absurd rfl this
    | cons a x => rw [show s.room = (s.room - 1) + 1 by omega]; simp

/-- After `Next()` returned false it will never return true again, nor will `BoundedNext`,
until the segmenter is initialised again. -/
theorem C05_false_is_final {s s' : Seg β} (hr : Reachable B s) (h : s.next B = some (s', false)) (cs : List SegCall) :
    s'.history B cs = some [] := by
  obtain ⟨h1, h2, h3⟩ := next_false B (reachable_inv B hr) h
  exact (final B cs s' h1 h2 h3).1

/-! ### C06 -/

/-- `InitFromSlice` and `Init` with a reader for the same text give the same segments and
penalties. -/
theorem C06_slice_and_reader_agree {s : Seg β} (hr : Reachable B s) (src : List (Int × Nat)) (hp : Polite B s.brk (src.map (·.1)))
    (hlen : src.length < s.room) (n : Nat) :
    (s.initSlice (src.map (·.1))).collect B n = (s.initReader src none).collect B n := by
  have hi := reachable_inv B hr
  obtain ⟨w, f, b1, b2, b3, b4, b5, _⟩ := initReader_facts B hi src none
  obtain ⟨w', f', c1, c2, c3, c4, c5, c6, c7, _⟩ := initSlice_facts B hi (src.map (·.1))
  obtain ⟨y, hy⟩ := todo_polite B hp w' f' c7 (initSlice_pending hi _)
  have ht : (s.initSlice (src.map (·.1))).todo B = (s.initReader src none).todo B := by
    rw [initReader_todo B hi, initSlice_todo B hi]
  rw [collect_out B n _ w f b1 b2 b3, collect_backed B n _ w' f' c1 c2 (by rw [c4]; omega) ⟨y, by rw [c3, c4]; exact hy⟩]
  rw [ht] at hy ⊢
  have hl := congrArg List.length hy
  simp only [List.length_append, List.length_map] at hl
  congr 2
  apply List.map_congr_left
  intro seg hseg
  simp only [show1]
  rw [List.take_of_length_le]
  have := (List.sublist_flatten_of_mem (List.mem_of_mem_take hseg)).length_le
  simp only [List.length_map]
  omega

/-- With impolite breakers the segments of a slice can end outside of the slice: a panic. -/
theorem C06_needs_polite_breakers :
    ((Seg.new [()]).initSlice [97]).collect (sayB 0 [-20000]) 3 = none ∧
    ((Seg.new [()]).initReader [(97, 1)] none).collect (sayB 0 [-20000]) 3 ≠ none := by
  decide +kernel

/-! ### C07 -/

theorem initReader_form {s : Seg β} (hi : Inv s) (src : List (Int × Nat)) (fin : Option Nat) :
    ∃ u, s.initReader src fin = ⟨true, [], src, fin, s.brk, s.buf.reset none, (0, 0), 0, s.zero0, s.zero1, 0, -1, false, u, s.err⟩ := by
  unfold initReader init
  by_cases hr : s.ready = true
  · simp only [hr, if_true]; exact ⟨_, rfl⟩
  · obtain ⟨i1, i2, i3, i4, i5, i6⟩ := hi.idle (by simpa using hr)
    have hr' : s.ready = false := by simpa using hr
    simp only [hr', Bool.false_eq_true, if_false, i1, i2, i3, i4, i5]
    exact ⟨_, rfl⟩

theorem initSlice_form {s : Seg β} (hi : Inv s) (text : List Int) :
    ∃ u, s.initSlice text = ⟨true, [], text.map (fun r => (r, 1)), none, s.brk, s.buf.reset (some text), (0, 0), 0, s.zero0, s.zero1, 0, -1, false, u, s.err⟩ := by
  unfold initSlice init
  by_cases hr : s.ready = true
  · simp only [hr, if_true]; exact ⟨_, rfl⟩
  · obtain ⟨i1, i2, i3, i4, i5, i6⟩ := hi.idle (by simpa using hr)
    have hr' : s.ready = false := by simpa using hr
    simp only [hr', Bool.false_eq_true, if_false, i1, i2, i3, i4, i5]
    exact ⟨_, rfl⟩

/-- After any history, `Init` forgets the previous text: two segmenters with breakers in the
same state, the same `BreakOnZero` options and buffers of the same size cannot be told apart
afterwards, whatever happened to them before, except through `Err()`. -/
theorem C07_init_forgets {s t : Seg β} (hs : Reachable B s) (ht : Reachable B t) (hb : t.brk = s.brk) (h0 : t.zero0 = s.zero0)
    (h1 : t.zero1 = s.zero1) (hroom : t.room = s.room) (src : List (Int × Nat)) (fin : Option Nat) (cs : List SegCall) :
    (s.initReader src fin).trace B cs = (t.initReader src fin).trace B cs := by
  have is := reachable_inv B hs
  have it := reachable_inv B ht
  obtain ⟨u, es⟩ := initReader_form is src fin
  obtain ⟨v, et⟩ := initReader_form it src fin
  obtain ⟨w, _⟩ := initReader_facts B is src fin
  obtain ⟨a1, a2, a3, a4, a5⟩ := reset_none_spec is.buf
  obtain ⟨b1, b2, b3, b4, b5⟩ := reset_none_spec it.buf
  refine trace_sim B cs _ _ ⟨⟨t.err, v, t.buf.reset none, ?_⟩, ?_⟩ w
  · rw [es, et, hb, h0, h1]; rfl
  · rw [es, et]
    exact ⟨by rw [a1, b1], rfl, rfl, rfl, a4, b4, by rw [a5, b5]; exact hroom, fun _ => ⟨a3, b3, by rw [a2, b2]⟩⟩

/-- The same for `InitFromSlice`. -/
theorem C07_slice_init_forgets {s t : Seg β} (hs : Reachable B s) (ht : Reachable B t) (hb : t.brk = s.brk) (h0 : t.zero0 = s.zero0)
    (h1 : t.zero1 = s.zero1) (hroom : t.room = s.room) (text : List Int) (cs : List SegCall) :
    (s.initSlice text).trace B cs = (t.initSlice text).trace B cs := by
  have is := reachable_inv B hs
  have it := reachable_inv B ht
  obtain ⟨u, es⟩ := initSlice_form is text
  obtain ⟨v, et⟩ := initSlice_form it text
  obtain ⟨w, _⟩ := initSlice_facts B is text
  obtain ⟨a1, a2, a3, a4, a5, a6⟩ := reset_some_spec is.buf text
  obtain ⟨b1, b2, b3, b4, b5, b6⟩ := reset_some_spec it.buf text
  refine trace_sim B cs _ _ ⟨⟨t.err, v, t.buf.reset (some text), ?_⟩, ?_⟩ w
  · rw [es, et, hb, h0, h1]; rfl
  · rw [es, et]
    exact ⟨by rw [a1, b1], by rw [a2, b2], by rw [a3, b3], by rw [a4, b4], a5, b5, by rw [a6, b6]; exact hroom,
      fun h => by rw [show _ = true from a1] at h; cases h⟩

/-- `Err()` is not forgotten: it still reports the read error of the previous text. -/
theorem C07_err_is_not_forgotten :
    ((((Seg.new [()]).initReader [] (some 7)).after (sayB 0 [5]) [.next]).map fun s =>
      ((s.initReader [(97, 1)] none).errValue)) = some (some (.reader 7)) := by
  decide +kernel

/-! ### C08 -/

/-- A read error stops segmentation: a call of `Next()` returns false exactly when the error has
been met, and then `Err()` is this error; before that it is nil. -/
theorem C08_read_errors_are_reported {s : Seg β} (hr : Reachable B s) (hclean : s.errValue = none) (src : List (Int × Nat))
    (e : Nat) (n : Nat) :
    ∃ s1 s2 ok, (s.initReader src (some e)).after B (List.replicate n .next) = some s1 ∧ s1.next B = some (s2, ok) ∧
      s2.errValue = if ok then none else some (.reader e) := by
  have hi := reachable_inv B hr
  obtain ⟨w, f, b1, b2, b3, b4, _, b6, b7, b8, _⟩ := initReader_facts B hi src (some e)
  have : ErrInv e (s.initReader src (some e)) := ⟨w, b6, Or.inl ⟨by unfold errValue at *; rw [b8]; exact hclean, b7⟩⟩
  obtain ⟨s1, h1, h2⟩ := nexts_err B n _ this
  obtain ⟨s2, ok, h3, _, h4⟩ := next_err B h2
  exact ⟨s1, s2, ok, h1, h3, h4⟩

/-- `Err()` is never `io.EOF`. -/
theorem C08_eof_is_not_an_error (s : Seg β) : s.errValue ≠ some .eof := by
  unfold errValue
  split <;> simp [*]

/-! ### C10 -/

/-- BoundedNext hands out text beyond the bound: "Hell" for the bound 3 on "Hello". -/
theorem C10_violated :
    ((Seg.new [SWB.new]).initReader [(72, 1), (101, 1), (108, 1), (108, 1), (111, 1)] none).history spaceB [.bounded 3] =
      some [[72, 101, 108, 108]] := by
  decide +kernel

/-- What does hold: a segment of `BoundedNext(b)` ends at or before position `b`, unless the end
of the text has been read; then it ends at or before `b + 1`. -/
theorem C10_bound_respected_partial {s : Seg β} (hr : Reachable B s) (src : List (Int × Nat)) (fin : Option Nat)
    (hsz : ∀ x ∈ src, 1 ≤ x.2) (hlen : src.length < s.room) (cs : List SegCall) (b : Int) {s1 s2 : Seg β}
    {segs : List (List Int)} {rs : List Int}
    (h1 : (s.initReader src fin).after B cs = some s1) (h2 : (s.initReader src fin).history B cs = some segs)
    (h3 : s1.boundedNext B b = some (s2, true)) (h4 : s2.runes = some rs) (hne : rs ≠ []) :
    ((segs.flatten.length + rs.length : Nat) : Int) ≤ b + (if s2.atEOF = true ∧ s2.srcEnd = none then 1 else 0) := by
  have hi := reachable_inv B hr
  obtain ⟨w, f, b1, b2, b3, b4, _, b6, b7, b8, _⟩ := initReader_facts B hi src fin
  obtain ⟨u, es⟩ := initReader_form hi src fin
  have hp : PosInv 0 (s.initReader src fin) := by
    rw [es]; exact ⟨hsz, by simp [markRead]⟩
  have hpl : (s.initReader src fin).pending.length ≤ (s.initReader src fin).room := by
    rw [initReader_pending hi, List.length_append, List.length_map, b4]; split <;> simp <;> omega
  obtain ⟨t, segs', a1, a2, a3, a4, a5, a6, a7, a8⟩ := hist_pos B cs _ 0 w b1 b2 b3 hp hpl
  rw [h1] at a1
  rw [h2] at a2
  simp only [Option.some.injEq] at a1 a2
  subst a1 a2
  obtain ⟨x, ok, e, _, _, hT⟩ := nextB_pos B a4 a3 (some (b - 1))
  have h3' : s1.nextB B (some (b - 1)) = some (s2, true) := h3
  rw [h3'] at e
  simp only [Option.some.injEq, Prod.mk.injEq] at e
  obtain ⟨rfl, rfl⟩ := e
  obtain ⟨popped, _, p2, p3, p4⟩ := hT rfl
  obtain ⟨w1, w2, w3, w4, _⟩ := write_spec a5 (fun _ => a7) popped
  obtain ⟨w5, w6⟩ := w4 a6
  rw [← p3] at w6
  have hl := congrArg List.length p2
  rw [List.length_append] at hl
  have hrs : rs = popped := by
    unfold runes at h4
    rw [w6, List.take_of_length_le] at h4
    · cases h4; rfl
    · rw [← room_eq]; omega
  subst hrs
  rcases p4 (b - 1) rfl with h | h
  · exact absurd h hne
  · unfold markRead at h
    rw [Nat.zero_add] at h
    split at h <;> (rename_i hc; first | rw [if_pos hc] | rw [if_neg hc]) <;> omega

/-- A breaker that makes up its mind at the end of the text. -/
def lateB : Breaker Unit := ⟨fun _ r => ((), if r = 0 then 0 else 100, [5])⟩

theorem empty_forever (b : Int) (n : Nat) : ∀ (s : Seg β), s.ready = true → s.atEOF = true → 0 ≤ s.bo → s.bo < s.q.length →
    b - 1 - s.pos + s.q.length < 0 → s.buf.isBacked = false →
    s.history B (List.replicate n (.bounded b)) = some (List.replicate n []) := by
  induction n with
  | zero => intros; rfl
  | succ n ih =>
    intro s h1 h2 h3 h4 h5 h6
    have e : s.call B (.bounded b) = some ({ s with inUse := true, lastP := (0, 0), buf := s.buf.setMark }, true) := by
      show s.nextB B (some (b - 1)) = _
      rw [nextB_core B h1]
      unfold nextCore
      rw [if_pos (show ({ s with inUse := true } : Seg β).atEOF = true from h2)]
      rw [if_neg (show ¬ ({ s with inUse := true } : Seg β).bo < 0 by simp only; omega)]
      unfold getFront
      simp only
      rw [if_neg (by omega), if_pos (by split <;> omega)]
      rfl
    have hr : ({ s with inUse := true, lastP := (0, 0), buf := s.buf.setMark } : Seg β).runes = some [] := by
      unfold runes RuneWrite.runes RuneWrite.setMark RuneWrite.outVal
      simp only [h6, Bool.false_eq_true, if_false]
      cases s.buf.out <;> rfl
    simp only [List.replicate_succ, history, e, Option.bind_some, if_true, hr]
    rw [ih]
    · rfl
    · exact h1
    · exact h2
    · exact h3
    · exact h4
    · exact h5
    · simp only [RuneWrite.setMark, h6, Bool.false_eq_true, if_false]

/-- At the end of the text `BoundedNext` with a small bound can return true for ever, with empty
segments. -/
theorem C10_empty_segments_for_ever (n : Nat) :
    ((Seg.new [()]).initReader [(97, 1), (98, 1), (99, 1)] none).history lateB (.next :: List.replicate n (.bounded (-5))) =
      some ([97] :: List.replicate n []) := by
  have h : ((((Seg.new [()]).initReader [(97, 1), (98, 1), (99, 1)] none).call lateB .next).map fun x =>
      (x.2, [x.1.ready, x.1.atEOF, x.1.buf.isBacked], [x.1.bo, x.1.q.length, x.1.pos], x.1.runes)) =
      some (true, [true, true, false], [0, 3, 3], some [97]) := by decide +kernel
  obtain ⟨⟨s1, ok⟩, e, h⟩ := Option.map_eq_some_iff.mp h
  simp only [Prod.mk.injEq, List.cons.injEq, and_true] at h
  obtain ⟨rfl, ⟨h1, h2, h6⟩, ⟨h3, h4, h5⟩, h7⟩ := h
  simp only [history, e, Option.bind_some, if_true, h7]
  rw [empty_forever lateB (-5) n s1 h1 h2 (by omega) (by omega) (by omega) h6]
  rfl

/-- Text is lost for `Next()` after a `BoundedNext` that has read the end of the text: `Next()`
would deliver "Hello" but after `BoundedNext(3)` has delivered "Hell" nothing follows. -/
theorem C46_bounded_next_loses_rest (n : Nat) :
    let s0 := (Seg.new [SWB.new]).initReader [(72, 1), (101, 1), (108, 1), (108, 1), (111, 1)] none
    s0.history spaceB [.next] = some [[72, 101, 108, 108, 111]] ∧
    s0.history spaceB (.bounded 3 :: List.replicate n .next) = some [[72, 101, 108, 108]] := by
  refine ⟨by decide +kernel, ?_⟩
  have h : ((((Seg.new [SWB.new]).initReader [(72, 1), (101, 1), (108, 1), (108, 1), (111, 1)] none).call spaceB (.bounded 3)).map fun x =>
      (x.2, x.1.ready, x.1.atEOF, x.1.bo, x.1.runes)) =
      some (true, true, true, -1, some [72, 101, 108, 108]) := by decide +kernel
  obtain ⟨⟨s1, ok⟩, e, h⟩ := Option.map_eq_some_iff.mp h
  simp only [Prod.mk.injEq] at h
  obtain ⟨rfl, h1, h2, h3, h7⟩ := h
  simp only [history, e, Option.bind_some, if_true, h7]
  rw [(final spaceB _ s1 h1 h2 (by omega)).1]
  rfl

/-! ### C12 -/

/-- `Next()` on a segmenter that has never been initialised panics. -/
theorem C12_violated (brk : List β) : (Seg.new brk).next B = none := rfl

/-- What does hold: `BoundedNext(b)` with b ≤ 0 returns false and `Err()` is `ErrNotInitialized`
(if there was no error before). -/
theorem C12_bounded_next_before_init_partial (brk : List β) (b : Int) (hb : b ≤ 0) :
    ∃ s', (Seg.new brk).boundedNext B b = some (s', false) ∧ s'.errValue = some .notInitialized := by
  have h : (Seg.new brk).boundedNext B b = some ({ (((Seg.new brk).setErr .notInitialized).setErr .boundReached) with
      inUse := true, buf := (Seg.new brk).buf.reset none }, false) := by
    unfold boundedNext nextB
    rw [if_pos (show (!(Seg.new brk).ready) = true from rfl)]
    simp only
    rw [if_pos]
    · rfl
    · unfold beyond
      simp only [decide_eq_true_eq]
      show b - 1 < 0 - 0
      omega
  exact ⟨_, h, rfl⟩

/-! ### C13 -/

/-- Feasibility of a penalty, as documented. -/
theorem C13_feasible (p : Int) (onZero : Bool) :
    isPossibleBreak p onZero = true ↔ p < 10000 ∧ (p ≠ 0 ∨ onZero = true) := by
  rw [possible_iff]
  unfold Feasible
  constructor
  · rintro ⟨h1, h2⟩
    exact ⟨h1, (Classical.em (p = 0)).elim (fun h => Or.inr (h2 h)) Or.inl⟩
  · rintro ⟨h1, h2⟩
    exact ⟨h1, fun h => h2.resolve_left (fun hh => hh h)⟩

/-- `Next()` breaks at feasible positions only: after any number of calls of `Next()`, the
penalties of a segment are feasible according to `BreakOnZero`. -/
theorem C13_next_breaks_at_feasible {s : Seg β} (hr : Reachable B s) (src : List (Int × Nat)) (fin : Option Nat) (n : Nat)
    {s1 s2 : Seg β} (h1 : (s.initReader src fin).after B (List.replicate n .next) = some s1) (h2 : s1.next B = some (s2, true)) :
    Feasible s2.lastP.1 s.zero0 ∨ (1 < s.brk.length ∧ Feasible s2.lastP.2 s.zero1) := by
  have hi := reachable_inv B hr
  obtain ⟨w, f, _⟩ := initReader_facts B hi src fin
  obtain ⟨u, es⟩ := initReader_form hi src fin
  obtain ⟨t, a1, a2, a3, a4, a5, a6, a7⟩ := nexts B n _ w f
  rw [h1] at a1
  simp only [Option.some.injEq] at a1
  subst a1
  obtain ⟨b1, b2⟩ := next_big B _ s1 (Nat.le_refl _) a2 a3
  cases ht : s1.todo B with
  | nil =>
    obtain ⟨x, hx, _⟩ := b2 ht
    rw [h2] at hx; simp at hx
  | cons seg rest =>
    obtain ⟨x, hx, _, _, _, _, _, _, ⟨a, _, hlp, hta⟩, _⟩ := b1 seg rest ht
    rw [h2] at hx
    simp only [Option.some.injEq, Prod.mk.injEq, and_true] at hx
    subst hx
    rw [hlp]
    have := (test_iff s1 a).mp hta
    rw [a5, a6, a7, es] at this
    exact this

/-! ### C45 -/

/-- With several breakers, the first one is the primary one: its sums do not depend on the others. -/
theorem primary_is_first (b : β) (bs : List β) (rs : List Int) (i : Nat) :
    total0 (verdicts B (b :: bs) rs) i = total0 (verdicts B [b] rs) i := by
  rw [total0_eq, total0_eq]
  have : ∀ (rs : List Int) (b : β) (bs : List β) (k : Nat), fut0 (verdicts B (b :: bs) rs) k = fut0 (verdicts B [b] rs) k := by
    intro rs
    induction rs with
    | nil => intros; rfl
    | cons r rs ih =>
      intro b bs k
      rw [verdicts_cons, verdicts_cons, fut0_cons, fut0_cons]
      simp only [List.map_cons, List.map_nil]
      rw [ih]
      rfl
  have : ∀ (rs : List Int) (b : β) (bs : List β) (i : Nat),
      fut0 ((verdicts B (b :: bs) rs).drop i) 0 = fut0 ((verdicts B [b] rs).drop i) 0 := by
    intro rs
    induction rs with
    | nil => intro b bs i; simp [verdicts]
    | cons r rs ih =>
      intro b bs i
      cases i with
      | zero => exact this _ _ _ _
      | succ i =>
        rw [verdicts_cons, verdicts_cons]
        simp only [List.map_cons, List.map_nil, List.drop_succ_cons]
        exact ih _ _ _
  exact this rs b bs i

/-- All the others are secondary: the second penalty is the sum over all other breakers of what
they would say as only breaker. -/
theorem others_are_secondary (b : β) (bs : List β) (rs : List Int) (i : Nat) :
    total1 (verdicts B (b :: bs) rs) i = (bs.map fun c => total0 (verdicts B [c] rs) i).sum := by
  rw [total1_eq]
  simp only [total0_eq]
  have sumadd : ∀ (l : List β) (f g : β → Int), (l.map f).sum + (l.map g).sum = (l.map fun c => f c + g c).sum := by
    intro l f g
    induction l with
    | nil => rfl
    | cons c l ih => simp only [List.map_cons, List.sum_cons]; omega
  have zero : ∀ (l : List β), (l.map fun _ => (0 : Int)).sum = 0 := by
    intro l
    induction l with
    | nil => rfl
    | cons c l ih => simp only [List.map_cons, List.sum_cons, ih]; rfl
  have : ∀ (rs : List Int) (b : β) (bs : List β) (k : Nat), fut1 (verdicts B (b :: bs) rs) k =
      (bs.map fun c => fut0 (verdicts B [c] rs) k).sum := by
    intro rs
    induction rs with
    | nil => intro b bs k; exact (zero bs).symm
    | cons r rs ih =>
      intro b bs k
      rw [verdicts_cons, fut1_cons, List.map_cons, ih]
      simp only [verdicts_cons, fut0_cons, List.map_map, List.map_cons, List.map_nil]
      rw [← sumadd]
      congr 1
      simp only [c1, verdict, List.map_cons, List.tail_cons, List.map_map]
      rfl
  have : ∀ (rs : List Int) (b : β) (bs : List β) (i : Nat),
      fut1 ((verdicts B (b :: bs) rs).drop i) 0 = (bs.map fun c => fut0 ((verdicts B [c] rs).drop i) 0).sum := by
    intro rs
    induction rs with
    | nil => intro b bs i; simp only [verdicts, List.drop_nil]; exact (zero bs).symm
    | cons r rs ih =>
      intro b bs i
      cases i with
      | zero => exact this _ _ _ _
      | succ i =>
        simp only [verdicts_cons, List.map_cons, List.map_nil, List.drop_succ_cons]
        rw [ih, List.map_map]
        rfl
  exact this rs b bs i

/-- A segmenter with the primary breaker `b` and the secondary breakers `bs`, honest ones, cuts after the
runes `i` that have left all active matches and for which the sum of what `b` says, when used alone, is feasible, or,
if there are secondary breakers, the sum of what they say, each when used alone. It reports these sums as penalties.
(The text must fit into the output buffer, see C09.) -/
theorem C45_multiple_breakers {s : Seg β} (hr : Reachable B s) (b : β) (bs : List β) (hb : s.brk = b :: bs) (src : List (Int × Nat)) (n : Nat)
    (hh : Honest (verdicts B (b :: bs) (src.map (·.1) ++ [0]))) (hlen : src.length < s.room) (hn : src.length + 1 < n) :
    ∃ pl, (s.initReader src none).collect B n = some (segmentsOf pl, true) ∧ pl.map (·.r) = src.map (·.1) ++ [0] ∧
      ∀ i p, pl[i]? = some p →
        p.p0 = (if i = src.length then 10000 else 0) + total0 (verdicts B [b] (src.map (·.1) ++ [0])) i ∧
        p.p1 = (if i = src.length then 10000 else 0) + (bs.map fun c => total0 (verdicts B [c] (src.map (·.1) ++ [0])) i).sum ∧
        (p.cut = true ↔ settled (verdicts B (b :: bs) (src.map (·.1) ++ [0])) i = true ∧
          (Feasible p.p0 s.zero0 ∨ (bs ≠ [] ∧ Feasible p.p1 s.zero1))) := by
  rw [← hb] at hh
  refine ⟨_, C02_cuts_exactly_at_feasible_positions B hr src n hh hlen hn, ?_, ?_⟩
  · unfold places
    apply List.ext_getElem?
    intro i
    rw [List.getElem?_map, List.getElem?_mapIdx]
    cases (src.map (·.1) ++ [0])[i]? <;> rfl
  · intro i p hp
    unfold places at hp
    rw [List.getElem?_mapIdx] at hp
    cases hx : (src.map (·.1) ++ [0])[i]? with
    | none => rw [hx] at hp; cases hp
    | some r =>
      rw [hx, Option.map_some, Option.some.injEq, hb] at hp
      subst hp
      have e1 := primary_is_first B b bs (src.map (·.1) ++ [0]) i
      have e2 := others_are_secondary B b bs (src.map (·.1) ++ [0]) i
      rw [List.length_map]
      refine ⟨by rw [e1], by rw [e2], ?_⟩
      simp only [decide_eq_true_eq]
      have : (1 < (b :: bs).length) ↔ bs ≠ [] := by cases bs <;> simp
      rw [this]

end Uax
