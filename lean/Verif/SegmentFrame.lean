import Verif.SegmentBound

/-! The behaviour does not depend on errors of the past, on the use flag and on the contents of
the output buffer. -/

namespace Uax
namespace Seg

variable {β : Type} (B : Breaker β)

def reframe (s : Seg β) (e : Option SegErr) (u : Bool) (w : RuneWrite) : Seg β := { s with err := e, inUse := u, buf := w }

theorem readEnough_frame (bound : Option Int) (e : Option SegErr) (u : Bool) (w : RuneWrite) :
    ∀ (src : List (Int × Nat)) (s : Seg β), readEnough B bound src (s.reframe e u w) =
      ((readEnough B bound src s).1.reframe e u w, (readEnough B bound src s).2) := by
  intro src
  induction src with
  | nil =>
    intro s
    rw [readEnough, readEnough]
    have h1 : (s.reframe e u w).bo = s.bo := rfl
    have h2 : (s.reframe e u w).beyond bound = s.beyond bound := rfl
    have h3 : (s.reframe e u w).atEOF = s.atEOF := rfl
    have h4 : (s.reframe e u w).srcEnd = s.srcEnd := rfl
    rw [h1, h2, h3]
    split
    · rfl
    · split
      · rfl
      · split
        · rfl
        · simp only [h4]
          split
          · rfl
          · have key : ∀ d : Seg β, (if (d.reframe e u w).bo ≥ 0 then (d.reframe e u w, none)
                else if (d.reframe e u w).beyond bound then (d.reframe e u w, some SegErr.boundReached)
                else (d.reframe e u w, some SegErr.eof)) =
                ((if d.bo ≥ 0 then (d, none) else if d.beyond bound then (d, some SegErr.boundReached) else (d, some SegErr.eof)).1.reframe e u w,
                (if d.bo ≥ 0 then (d, none) else if d.beyond bound then (d, some SegErr.boundReached) else (d, some SegErr.eof)).2) := by
              intro d
              have h6 : (d.reframe e u w).bo = d.bo := rfl
              have h7 : (d.reframe e u w).beyond bound = d.beyond bound := rfl
              rw [h6, h7]
              split
              · rfl
              · split <;> rfl
            exact key (digest B { s with src := [], atEOF := true } bound eotAtom)
  | cons x rest ih =>
    intro s
    obtain ⟨r, sz⟩ := x
    rw [readEnough, readEnough]
    have h1 : (s.reframe e u w).bo = s.bo := rfl
    have h2 : (s.reframe e u w).beyond bound = s.beyond bound := rfl
    have h3 : (s.reframe e u w).atEOF = s.atEOF := rfl
    rw [h1, h2, h3]
    split
    · rfl
    · split
      · rfl
      · split
        · rfl
        · exact ih (digest B { s with pos := s.pos + sz } bound ⟨r, 0, 0⟩)

theorem popWrite_frame (e : Option SegErr) (u : Bool) : ∀ (n : Nat) (w : RuneWrite) (s : Seg β),
    popWrite n (s.reframe e u w) = (popWrite n s).map fun s' => s'.reframe e u (writeAll w ((s.q.take n).map (·.r))) := by
  intro n
  induction n with
  | zero => intro w s; rfl
  | succ n ih =>
    intro w s
    rw [popWrite, popWrite]
    have h1 : (s.reframe e u w).q = s.q := rfl
    rw [h1]
    cases hq : s.q with
    | nil => rfl
    | cons a q =>
      have := ih (w.writeRune a.r).1 { s with q := q, buf := (s.buf.writeRune a.r).1, lastP := (a.p0, a.p1) }
      simp only [List.take_succ_cons, List.map_cons, writeAll]
      exact this

/-- `getFrontSegment` after its first two lines. -/
def frontCore (x : Seg β) (bound : Option Int) : Option (Seg β) :=
  let l : Int := min ((x.q.length : Int) - 1) x.bo
  if l < 0 then none
  else
    let start : Int := x.pos - (x.q.length : Int)
    let l' : Int := match bound with
      | none => l
      | some b => if start + l ≥ b then b - x.pos + (x.q.length : Int) else l
    if l' < 0 then some x
    else match popWrite (l'.toNat + 1) x with
      | none => none
      | some s => some { s with bo := s.find bound }

theorem frontCore_frame (bound : Option Int) (e : Option SegErr) (u : Bool) (w : RuneWrite) {x x' : Seg β}
    (h : frontCore x bound = some x') :
    ∃ n, frontCore (x.reframe e u w) bound = some (x'.reframe e u (writeAll w ((x.q.take n).map (·.r)))) ∧
      x'.buf = writeAll x.buf ((x.q.take n).map (·.r)) ∧ x'.ready = x.ready := by
  unfold frontCore at h ⊢
  have h1 : (x.reframe e u w).q = x.q := rfl
  have h2 : (x.reframe e u w).bo = x.bo := rfl
  have h3 : (x.reframe e u w).pos = x.pos := rfl
  simp only [h1, h2, h3] at h ⊢
  generalize hL : (match bound with
      | none => min ((x.q.length : Int) - 1) x.bo
      | some b => if x.pos - (x.q.length : Int) + min ((x.q.length : Int) - 1) x.bo ≥ b then b - x.pos + (x.q.length : Int)
        else min ((x.q.length : Int) - 1) x.bo) = L at *
  have hLle : L ≤ min ((x.q.length : Int) - 1) x.bo := by
    rw [← hL]
    split
    · exact Int.le_refl _
    · split <;> omega
  split at h
  · cases h
  · next hl =>
    rw [if_neg hl]
    split at h
    · next hl2 =>
      rw [if_pos hl2]
      cases h
      exact ⟨0, rfl, rfl, rfl⟩
    · next hl2 =>
      rw [if_neg hl2, popWrite_frame e u (L.toNat + 1) w x]
      obtain ⟨lp, e1, _⟩ := popWrite_spec (L.toNat + 1) x (by omega)
      rw [e1] at h ⊢
      simp only [Option.map_some] at h ⊢
      cases h
      exact ⟨_, rfl, rfl, rfl⟩

theorem getFront_frame (bound : Option Int) (e : Option SegErr) (u : Bool) (w : RuneWrite) {s s' : Seg β}
    (h : s.getFront bound = some s') :
    ∃ n, (s.reframe e u w).getFront bound = some (s'.reframe e u (writeAll w.setMark ((s.q.take n).map (·.r)))) ∧
      s'.buf = writeAll s.buf.setMark ((s.q.take n).map (·.r)) ∧ s'.ready = s.ready :=
  frontCore_frame bound e u w.setMark (x := { s with lastP := (0, 0), buf := s.buf.setMark }) h

/-- Buffers that cannot be told apart. -/
structure BufSim (w v : RuneWrite) : Prop where
  backed : v.isBacked = w.isBacked
  backing : v.backing = w.backing
  start : v.start = w.start
  stop : v.stop = w.stop
  okw : BufOK w
  okv : BufOK v
  room : roomOf v = roomOf w
  out : w.isBacked = false → w.out.isSome ∧ v.out.isSome ∧ v.outVal = w.outVal

theorem BufSim.runes {w v : RuneWrite} (h : BufSim w v) : v.runes = w.runes := by
  unfold RuneWrite.runes
  rw [h.backed, h.backing, h.start, h.stop]
  split
  · rfl
  · next hb => rw [(h.out (by simpa using hb)).2.2]

theorem BufSim.reset {w v : RuneWrite} (h : BufSim w v) : BufSim (w.reset none) (v.reset none) := by
  obtain ⟨a1, a2, a3, a4, a5⟩ := reset_none_spec h.okw
  obtain ⟨b1, b2, b3, b4, b5⟩ := reset_none_spec h.okv
  exact ⟨by rw [a1, b1], rfl, rfl, rfl, a4, b4, by rw [a5, b5, h.room], fun _ => ⟨a3, b3, by rw [a2, b2]⟩⟩

theorem BufSim.write {w v : RuneWrite} (h : BufSim w v) (rs : List Int) :
    BufSim (writeAll w.setMark rs) (writeAll v.setMark rs) := by
  obtain ⟨a1, a2, a3, a4, a5⟩ := write_spec h.okw (fun hb => (h.out hb).1) rs
  obtain ⟨b1, b2, b3, b4, b5⟩ := write_spec h.okv (fun hb => (h.out (by rw [← h.backed]; exact hb)).2.1) rs
  cases hb : w.isBacked with
  | true =>
    have a5 := a5 hb
    have b5 := b5 (by rw [h.backed, hb])
    refine ⟨by rw [a3, b3, h.backed], ?_, ?_, ?_, a1, b1, by rw [a2, b2, h.room], fun hh => by rw [a3, hb] at hh; cases hh⟩
    · rw [a5, b5]; exact h.backing
    · rw [a5, b5]; exact h.stop
    · rw [a5, b5]; simp only [h.stop]
  | false =>
    obtain ⟨a6, a7⟩ := a4 hb
    obtain ⟨b6, b7⟩ := b4 (by rw [h.backed, hb])
    have fr : ∀ (rs : List Int) (x : RuneWrite), x.isBacked = false → (writeAll x rs).backing = x.backing ∧
        (writeAll x rs).start = x.start ∧ (writeAll x rs).stop = x.stop := by
      intro rs
      induction rs with
      | nil => intro x _; exact ⟨rfl, rfl, rfl⟩
      | cons r rs ih =>
        intro x hx
        have : (x.writeRune r).1.isBacked = false ∧ (x.writeRune r).1.backing = x.backing ∧
            (x.writeRune r).1.start = x.start ∧ (x.writeRune r).1.stop = x.stop := by
          unfold RuneWrite.writeRune
          simp only [hx, Bool.false_eq_true, if_false]
          (repeat' split) <;> simp [hx]
        obtain ⟨i1, i2, i3⟩ := ih _ this.1
        rw [writeAll, i1, i2, i3]
        exact this.2
    have sm : ∀ x : RuneWrite, x.isBacked = false → x.setMark.isBacked = false ∧ x.setMark.backing = x.backing ∧
        x.setMark.start = x.start ∧ x.setMark.stop = x.stop := by
      intro x hx; unfold RuneWrite.setMark; simp [hx]
    have hv : v.isBacked = false := by rw [h.backed, hb]
    obtain ⟨f1, f2, f3⟩ := fr rs w.setMark (sm w hb).1
    obtain ⟨g1, g2, g3⟩ := fr rs v.setMark (sm v hv).1
    refine ⟨by rw [a3, b3, h.backed], ?_, ?_, ?_, a1, b1, by rw [a2, b2, h.room], fun _ => ⟨a6, b6, ?_⟩⟩
    · rw [f1, g1, (sm w hb).2.1, (sm v hv).2.1, h.backing]
    · rw [f2, g2, (sm w hb).2.2.1, (sm v hv).2.2.1, h.start]
    · rw [f3, g3, (sm w hb).2.2.2, (sm v hv).2.2.2, h.stop]
    · unfold RuneWrite.runes at a7 b7
      rw [a3, hb] at a7
      rw [b3, hv] at b7
      simp only [Bool.false_eq_true, if_false, Option.some.injEq] at a7 b7
      rw [a7, b7, h.room]

/-- Segmenters that cannot be told apart except through `Err()`. -/
structure Sim (s t : Seg β) : Prop where
  eq : ∃ e u w, t = s.reframe e u w
  buf : BufSim s.buf t.buf

/-- `next` of a ready segmenter after setting the use flag. -/
def nextCore (x : Seg β) (bound : Option Int) : Option (Seg β × Bool) :=
  if x.atEOF then
    if x.bo < 0 then some ({ x with buf := x.buf.reset none }, false)
    else (x.getFront bound).map (·, true)
  else
    match readEnough B bound x.src x with
    | (s, some .boundReached) =>
      some ({ (s.setErr .boundReached) with buf := s.buf.reset none }, false)
    | (s, some (.reader e)) =>
      some ({ (s.setErr (.reader e)) with buf := s.buf.reset none }, false)
    | (s, _) =>
      if s.past bound then
        some (s, false)
      else if s.bo < 0 then some ({ s with buf := s.buf.reset none }, false)
      else (s.getFront bound).map (·, true)

theorem nextB_core {s : Seg β} (hr : s.ready = true) (bound : Option Int) :
    s.nextB B bound = nextCore B { s with inUse := true } bound := by
  unfold nextB
  rw [if_neg (by simp [hr])]
  rfl

theorem nextB_sim {s t s' : Seg β} {ok : Bool} (h : Sim s t) (hr : s.ready = true) (bound : Option Int)
    (hn : s.nextB B bound = some (s', ok)) :
    ∃ t', t.nextB B bound = some (t', ok) ∧ Sim s' t' ∧ t'.lastP = s'.lastP ∧ s'.ready = true := by
  obtain ⟨⟨e, u, w, rfl⟩, hb⟩ := h
  have hb : BufSim s.buf w := hb
  have front : ∀ (x s' : Seg β) (ok : Bool), x.ready = true → x.buf = s.buf → (x.getFront bound).map (·, true) = some (s', ok) →
      ∃ t', ((x.reframe e true w).getFront bound).map (·, true) = some (t', ok) ∧ Sim s' t' ∧ t'.lastP = s'.lastP ∧ s'.ready = true := by
    intro x s' ok hx hxb hg
    cases hgf : x.getFront bound with
    | none => rw [hgf] at hg; cases hg
    | some y =>
      rw [hgf] at hg
      simp only [Option.map_some, Option.some.injEq, Prod.mk.injEq] at hg
      obtain ⟨rfl, rfl⟩ := hg
      obtain ⟨n, g1, g2, g3⟩ := getFront_frame bound e true w hgf
      rw [g1]
      refine ⟨_, rfl, ⟨⟨_, _, _, rfl⟩, ?_⟩, rfl, ?_⟩
      · rw [g2, hxb]; exact hb.write _
      · rw [g3, hx]
  have rd : ∀ (src : List (Int × Nat)) (x : Seg β), (readEnough B bound src x).1.ready = x.ready ∧ (readEnough B bound src x).1.buf = x.buf := by
    intro src
    induction src with
    | nil =>
      intro x
      rw [readEnough]
      split
      · exact ⟨rfl, rfl⟩
      · split
        · exact ⟨rfl, rfl⟩
        · split
          · exact ⟨rfl, rfl⟩
          · simp only
            split
            · exact ⟨rfl, rfl⟩
            · split
              · exact ⟨rfl, rfl⟩
              · split <;> exact ⟨rfl, rfl⟩
    | cons y rest ih =>
      intro x
      rw [readEnough]
      split
      · exact ⟨rfl, rfl⟩
      · split
        · exact ⟨rfl, rfl⟩
        · split
          · exact ⟨rfl, rfl⟩
          · exact ih _
  rw [nextB_core B hr] at hn
  rw [nextB_core B (show (s.reframe e u w).ready = true from hr)]
  generalize hX : ({ s with inUse := true } : Seg β) = X at hn
  rw [show ({ s.reframe e u w with inUse := true } : Seg β) = X.reframe e true w by rw [← hX]; rfl]
  have hXr : X.ready = true := by rw [← hX]; exact hr
  have hXb : X.buf = s.buf := by rw [← hX]
  have hXu : X.inUse = true := by rw [← hX]
  unfold nextCore at hn ⊢
  have hE' : (X.reframe e true w).atEOF = X.atEOF := rfl
  have hsrc : (X.reframe e true w).src = X.src := rfl
  rw [hE', hsrc]
  by_cases hE : X.atEOF = true
  · rw [if_pos hE] at hn ⊢
    by_cases hbo : X.bo < 0
    · rw [if_pos hbo] at hn
      rw [if_pos (show (X.reframe e true w).bo < 0 from hbo)]
      cases hn
      refine ⟨_, rfl, ⟨⟨e, true, w.reset none, rfl⟩, ?_⟩, rfl, hXr⟩
      show BufSim (X.buf.reset none) (w.reset none)
      rw [hXb]
      exact hb.reset
    · rw [if_neg hbo] at hn
      rw [if_neg (show ¬ (X.reframe e true w).bo < 0 from hbo)]
      exact front _ _ _ hXr hXb hn
  · rw [if_neg hE] at hn ⊢
    rw [readEnough_frame]
    have hrd := rd X.src X
    rcases hre : readEnough B bound X.src X with ⟨x, er⟩
    rw [hre] at hn hrd
    simp only at hrd
    obtain ⟨hx1, hx2⟩ := hrd
    have hx1 : x.ready = true := by rw [hx1]; exact hXr
    have hx2 : x.buf = s.buf := by rw [hx2, hXb]
    have seterr : ∀ (y : Seg β) (e' : SegErr), ∃ e'', (y.setErr e') = y.reframe e'' y.inUse y.buf := by
      intro y e'
      unfold setErr
      split
      · exact ⟨_, rfl⟩
      · exact ⟨_, rfl⟩
      · exact ⟨y.err, rfl⟩
    have inu : x.inUse = true := by
      have : ∀ (src : List (Int × Nat)) (x : Seg β), (readEnough B bound src x).1.inUse = x.inUse := by
        intro src
        induction src with
        | nil =>
          intro x
          rw [readEnough]
          split
          · rfl
          · split
            · rfl
            · split
              · rfl
              · simp only
                split
                · rfl
                · split
                  · rfl
                  · split <;> rfl
        | cons y rest ih =>
          intro x
          rw [readEnough]
          split
          · rfl
          · split
            · rfl
            · split
              · rfl
              · exact ih _
      have := this X.src X
      rw [hre] at this
      rw [this]; exact hXu
    have fail : ∀ e', ∃ t', some (({ ((x.reframe e true w).setErr e') with buf := (x.reframe e true w).buf.reset none } : Seg β), false) = some (t', false) ∧
        Sim ({ (x.setErr e') with buf := x.buf.reset none } : Seg β) t' ∧ t'.lastP = ({ (x.setErr e') with buf := x.buf.reset none } : Seg β).lastP ∧
        ({ (x.setErr e') with buf := x.buf.reset none } : Seg β).ready = true := by
      intro e'
      obtain ⟨e1, h1⟩ := seterr x e'
      obtain ⟨e2, h2⟩ := seterr (x.reframe e true w) e'
      rw [h1, h2]
      refine ⟨_, rfl, ⟨⟨e2, true, w.reset none, rfl⟩, ?_⟩, rfl, hx1⟩
      show BufSim (x.buf.reset none) (w.reset none)
      rw [hx2]
      exact hb.reset
    have done : ∀ s' ok, (if x.past bound = true then some (x, false)
        else if x.bo < 0 then some ({ x with buf := x.buf.reset none }, false)
        else (x.getFront bound).map (·, true)) = some (s', ok) →
        ∃ t', (if (x.reframe e true w).past bound = true then some (x.reframe e true w, false)
        else if (x.reframe e true w).bo < 0 then some ({ (x.reframe e true w) with buf := (x.reframe e true w).buf.reset none }, false)
        else ((x.reframe e true w).getFront bound).map (·, true)) = some (t', ok) ∧ Sim s' t' ∧ t'.lastP = s'.lastP ∧ s'.ready = true := by
      intro s' ok h
      have p1 : (x.reframe e true w).past bound = x.past bound := rfl
      have p2 : (x.reframe e true w).bo = x.bo := rfl
      rw [p1, p2]
      split at h
      · next hp =>
        rw [if_pos hp]
        cases h
        exact ⟨_, rfl, ⟨⟨_, _, _, rfl⟩, by rw [hx2]; exact hb⟩, rfl, hx1⟩
      · next hp =>
        rw [if_neg hp]
        split at h
        · next hbo =>
          rw [if_pos hbo]
          cases h
          refine ⟨_, rfl, ⟨⟨e, true, w.reset none, rfl⟩, ?_⟩, rfl, hx1⟩
          show BufSim (x.buf.reset none) (w.reset none)
          rw [hx2]
          exact hb.reset
        · next hbo =>
          rw [if_neg hbo]
          exact front x _ _ hx1 hx2 h
    cases er with
    | none => exact done _ _ hn
    | some er =>
      cases er with
      | boundReached => cases hn; exact fail _
      | reader e' => cases hn; exact fail _
      | eof => exact done _ _ hn
      | tooLong => exact done _ _ hn
      | notInitialized => exact done _ _ hn

theorem trace_sim : ∀ (cs : List SegCall) (s t : Seg β), Sim s t → WF s → s.trace B cs = t.trace B cs := by
  intro cs
  induction cs with
  | nil => intros; rfl
  | cons c cs ih =>
    intro s t h hw
    have hcall : ∃ bound, ∀ x : Seg β, x.call B c = x.nextB B bound := by cases c <;> exact ⟨_, fun _ => rfl⟩
    obtain ⟨bound, hcall⟩ := hcall
    obtain ⟨s', ok, e, hw', _⟩ := nextB_spec B hw bound
    obtain ⟨t', e', h', hl, _⟩ := nextB_sim B h hw.ready bound e
    simp only [trace, hcall, e, e', Option.bind_some]
    have : t'.runes = s'.runes := h'.buf.runes
    rw [this, ih s' t' h' hw', hl]

end Seg
end Uax
