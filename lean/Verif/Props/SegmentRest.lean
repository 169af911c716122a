import Verif.SegmentRest
import Verif.Props.SegmentCalls

/-! Property C46: what is delivered by `Next()` after bounded calls. -/

namespace Uax
open Seg

variable {β : Type} (B : Breaker β)

/-- After any calls of `Next()` and `BoundedNext` that have not yet read the end of the text, or if one more `Next()` still returns a segment,
sufficiently many `Next()` calls hand out the rest of the text, up to the last position at which
the breakers allow a break: no position after the text handed out is one where the sum of all the
penalties allows a break, unless some breaker still looks back at it when the text ends. -/
theorem C46_rest_partial {s : Seg β} (hr : Reachable B s) (src : List (Int × Nat)) (hlen : src.length < s.room)
    (cs : List SegCall) {s1 : Seg β} (h1 : (s.initReader src none).after B cs = some s1) (hE : s1.atEOF = false ∨ ∃ s', s1.next B = some (s', true))
    (n : Nat) (hn : src.length + 3 ≤ n) :
    ∃ segs rest, (s.initReader src none).history B (cs ++ List.replicate n .next) = some segs ∧
      segs.flatten ++ rest = src.map (·.1) ++ [0] ∧
      ∀ i, segs.flatten.length ≤ i →
        ∀ v, (verdicts B s.brk (src.map (·.1) ++ [0]))[src.length]? = some v → (i : Int) + v.lam ≤ src.length →
        ¬ Feasible ((if i = src.length then 10000 else 0) + total0 (verdicts B s.brk (src.map (·.1) ++ [0])) i) s.zero0 ∧
        (1 < s.brk.length →
          ¬ Feasible ((if i = src.length then 10000 else 0) + total1 (verdicts B s.brk (src.map (·.1) ++ [0])) i) s.zero1) := by
  have hi := reachable_inv B hr
  obtain ⟨w, f, b1, b2, b3, b4, b5, b6, b7, b8, b9⟩ := initReader_facts B hi src none
  obtain ⟨u, es⟩ := initReader_form hi src none
  have hlenA : (atomsOf (src.map (·.1)) none).length = src.length + 1 := by
    simp [atomsOf]
  have hmap : (atomsOf (src.map (·.1)) none).map (·.r) = src.map (·.1) ++ [0] := by
    unfold atomsOf
    rw [List.map_append, List.map_map]
    simp [Function.comp_def, eotAtom]
  have hal : (atomsOf (src.map (·.1)) none).length ≤ (s.initReader src none).room := by
    rw [b4]; omega
  -- the calls up to now
  obtain ⟨s', segs, o, a1, _, a3, _, _, a6, _⟩ :=
    hist_out B s.brk (atomsOf (src.map (·.1)) none) cs _ 0 w b1 b2 b3 b5 hal
  rw [h1] at a1
  cases a1
  have keep : ∀ (cs : List SegCall) (x y : Seg β), WF x → x.after B cs = some y → y.srcEnd = x.srcEnd ∧
      y.zero0 = x.zero0 ∧ y.zero1 = x.zero1 ∧ y.brk.length = x.brk.length ∧ y.pending.length ≤ x.pending.length := by
    intro cs
    induction cs with
    | nil => intro x y _ h; cases h; exact ⟨rfl, rfl, rfl, rfl, Nat.le_refl _⟩
    | cons c cs ih =>
      intro x y hx h
      have hcall : ∃ bound, x.call B c = x.nextB B bound := by cases c <;> exact ⟨_, rfl⟩
      obtain ⟨bd, hcall⟩ := hcall
      obtain ⟨x', ok, e, hx', z1, z2, z3, z4, z5, z6⟩ := nextB_spec B hx bd
      simp only [after, hcall, e, Option.bind_some] at h
      obtain ⟨k1, k2, k3, k4, k5⟩ := ih x' y hx' h
      have hpl : x'.pending.length ≤ x.pending.length := by
        cases ok with
        | true => obtain ⟨p, hp, _⟩ := z5 rfl; rw [hp]; simp
        | false => rw [(z6 rfl).1]; exact Nat.le_refl _
      exact ⟨k1.trans z1, k2.trans z3, k3.trans z4, k4.trans z2, Nat.le_trans k5 hpl⟩
  obtain ⟨k1, k2, k3, k4, k5⟩ := keep cs _ _ w h1
  rw [b6] at k1
  obtain ⟨fed, f1, f2, f3, f4⟩ := a3.ex
  have hfl := congrArg List.length f1
  have hq := congrArg List.length f3
  rw [List.length_append, hlenA] at hfl
  rw [List.length_drop, runA_length] at hq
  have hpl : s1.pending.length < n - 1 := by
    have hp := congrArg List.length (initReader_pending hi src none)
    simp at hp
    omega
  -- the calls to come
  obtain ⟨s2, e2, w2, hE2, hfo, z0, z1, z2⟩ := nexts_exhaust B a6 hE k1 (n - 1) hpl
  rw [show n - 1 + 1 = n by omega] at e2
  have hL : LamT B s.brk (atomsOf (src.map (·.1)) none) 0 (s.initReader src none) :=
    ⟨[], by rw [es]; simp [incoming, atomsOf, Function.comp_def], by rw [es]; rfl, fun h => absurd h (Nat.lt_irrefl _)⟩
  -- all the calls
  have happ : ∀ (l1 l2 : List SegCall) (x y : Seg β), x.after B l1 = some y → x.after B (l1 ++ l2) = y.after B l2 := by
    intro l1
    induction l1 with
    | nil => intro l2 x y h; cases h; rfl
    | cons c l1 ih =>
      intro l2 x y h
      simp only [after, List.cons_append] at h ⊢
      cases hc : x.call B c with
      | none => rw [hc] at h; cases h
      | some p => rw [hc] at h; simp only [Option.bind_some] at h ⊢; exact ih _ _ _ h
  obtain ⟨fed', g1, _, g3⟩ := after_lamT B _ _ _ w b6 hL ((happ _ _ _ _ h1).trans e2)
  obtain ⟨s3, segs3, o3, c1, c2, c3, _, c5, _⟩ :=
    hist_out B s.brk (atomsOf (src.map (·.1)) none) (cs ++ List.replicate n .next) _ 0 w b1 b2 b3 b5 hal
  rw [happ _ _ _ _ h1, e2] at c1
  cases c1
  have hinc : s2.incoming = [] := by unfold incoming; rw [if_pos hE2]
  obtain ⟨fed3, t1, t2, t3, t4⟩ := c3.ex
  rw [hinc, List.append_nil] at g1 t1
  subst g1
  subst t1
  rw [List.drop_zero, Nat.sub_zero, List.map_take, hmap] at c5
  have hol : segs3.flatten.length = o3 := by
    rw [c5, List.length_take]; simp; omega
  refine ⟨segs3, List.drop o3 (src.map (fun x => x.1) ++ [0]), c2, by rw [c5, List.take_append_drop], ?_⟩
  intro i hio v hv hlam
  have hqlen := congrArg List.length t3
  rw [List.length_drop, runA_length, hlenA] at hqlen
  simp only [List.length_nil, Nat.zero_add] at hqlen
  -- the breakers' last word
  have hlast : s2.lam = v.lam := by
    have := g3 (by rw [hlenA]; omega)
    rw [hmap, List.getLast?_eq_getElem?] at this
    have hvl : ∀ (l : List Int) (bs : List β), (verdicts B bs l).length = l.length := by
      intro l
      induction l with
      | nil => intro bs; rfl
      | cons r l ih => intro bs; simp [verdicts, ih]
    rw [hvl] at this
    simp only [List.length_append, List.length_map, List.length_cons, List.length_nil, Nat.zero_add,
      Nat.add_sub_cancel] at this
    rw [hv] at this
    simpa using this.symm
  have hv0 : 0 ≤ s2.lam := w2.lam
  have hidx : i - o3 < s2.q.length := by omega
  have hget : s2.q[i - o3]? = some s2.q[i - o3] := List.getElem?_eq_getElem hidx
  have hbad : s2.test s2.q[i - o3] = false := by
    unfold firstOk at hfo
    rw [List.findIdx?_eq_none_iff] at hfo
    have hmem : s2.q[i - o3] ∈ s2.q.take ((s2.q.length : Int) - s2.lam).toNat := by
      rw [List.mem_take_iff_getElem]
      exact ⟨i - o3, by omega, rfl⟩
    simpa using hfo _ hmem
  generalize s2.q[i - o3] = a at hbad hget
  rw [t3, List.getElem?_drop, show o3 + (i - o3) = i by omega] at hget
  rcases runA_get B _ _ _ _ _ hget with ⟨b, hb, _⟩ | ⟨_, b, hb, rfl⟩
  · simp at hb
  · simp only [List.length_nil, Nat.sub_zero] at hb hbad
    have hbp : b.p0 = (if i = src.length then 10000 else 0) ∧ b.p1 = (if i = src.length then 10000 else 0) := by
      unfold atomsOf at hb
      rcases Nat.lt_or_ge i src.length with hlt | hge
      · rw [List.getElem?_append_left (by simpa using hlt)] at hb
        rw [if_neg (by omega)]
        simp only [List.map_map, List.getElem?_map] at hb
        cases hs : src[i]? with
        | none => rw [hs] at hb; cases hb
        | some z => rw [hs] at hb; cases hb; exact ⟨rfl, rfl⟩
      · have : i = src.length := by omega
        subst this
        rw [List.getElem?_append_right (by simp)] at hb
        simp only [List.length_map, Nat.sub_self, if_true, List.getElem?_cons_zero, Option.some.injEq] at hb
        subst hb
        rw [if_pos rfl]
        exact ⟨rfl, rfl⟩
    rw [hbp.1, hbp.2, hmap] at hbad
    unfold test feasible at hbad
    rw [z0, z1, z2, k2, k3, k4] at hbad
    simp only [Bool.or_eq_false_iff, Bool.and_eq_false_iff, decide_eq_false_iff_not] at hbad
    have hz : (s.initReader src none).zero0 = s.zero0 ∧ (s.initReader src none).zero1 = s.zero1 ∧
        (s.initReader src none).brk.length = s.brk.length := by rw [es]; exact ⟨rfl, rfl, rfl⟩
    rw [hz.1, hz.2.1, hz.2.2] at hbad
    refine ⟨fun h => ?_, fun hm h => ?_⟩
    · rw [← possible_iff] at h
      rw [h] at hbad
      cases hbad.1
    · rw [← possible_iff] at h
      rcases hbad.2 with hb2 | hb2
      · exact hb2 hm
      · rw [h] at hb2; cases hb2

/-- The same for breakers that look back at no more than one rune at the end of the text and
allow a break there: after the bounded calls, `Next()` calls hand out the whole rest. -/
theorem C46_all_partial {s : Seg β} (hr : Reachable B s) (src : List (Int × Nat)) (hlen : src.length < s.room)
    (cs : List SegCall) {s1 : Seg β} (h1 : (s.initReader src none).after B cs = some s1) (hE : s1.atEOF = false ∨ ∃ s', s1.next B = some (s', true))
    (n : Nat) (hn : src.length + 3 ≤ n) (hne : src ≠ [])
    {v : Verdict} (hv : (verdicts B s.brk (src.map (·.1) ++ [0]))[src.length]? = some v) (hlam : v.lam ≤ 1)
    (hf : Feasible (total0 (verdicts B s.brk (src.map (·.1) ++ [0])) (src.length - 1)) s.zero0) :
    ∃ segs, (s.initReader src none).history B (cs ++ List.replicate n .next) = some segs ∧
      src.map (·.1) <+: segs.flatten := by
  obtain ⟨segs, rest, h2, h3, h4⟩ := C46_rest_partial B hr src hlen cs h1 hE n hn
  refine ⟨segs, h2, ?_⟩
  have hpos : 0 < src.length := List.length_pos_iff.mpr hne
  rcases Nat.lt_or_ge segs.flatten.length src.length with hlt | hge
  · have := (h4 (src.length - 1) (by omega) v hv (by omega)).1
    rw [if_neg (by omega), Int.zero_add] at this
    exact absurd hf this
  · have e : segs.flatten = (src.map (fun x : Int × Nat => x.1) ++ [0]).take segs.flatten.length := by rw [← h3]; simp
    rw [e]
    exact (List.prefix_take_iff.mpr ⟨List.prefix_append _ _, by simpa using hge⟩)

/-- The hypotheses are met by "Hello Wo" and `BoundedNext(3)`: the end of the text has not been
read, and the calls of `Next()` deliver the rest. -/
example :
    let src : List (Int × Nat) := [72, 101, 108, 108, 111, 32, 87, 111].map fun r => (r, 1)
    let s0 := (Seg.new [SWB.new]).initReader src none
    (s0.after spaceB [.bounded 3]).map (·.atEOF) = some false ∧
    (verdicts spaceB [SWB.new] (src.map (·.1) ++ [0]))[src.length]?.map (·.lam) = some 0 ∧
    Feasible (total0 (verdicts spaceB [SWB.new] (src.map (·.1) ++ [0])) (src.length - 1)) false ∧
    s0.history spaceB ([.bounded 3] ++ List.replicate 11 .next) = some [[72, 101, 108], [108, 111], [32], [87, 111]] := by
  decide +kernel

end Uax
