import Verif.PublisherProofs

/-! A bank of recognizers which do not interfere with each other: publishing an event to a queue of
subscribers does the same to each of them as if it were alone. The order of the queue, which the
publisher changes in a complicated way, does not matter. -/

namespace Uax
namespace Bank

open Pub

variable {γ σ κ : Type}

/-- What is essential of subscribers: an abstract state, and how it reacts to a class. -/
structure View (S : Sub γ σ) (κ : Type) where
  abs : σ → κ
  /-- The state after an event, `none` if done, and the penalties. -/
  ev : γ → κ → Int → Option κ × List Int
  /-- The match length. -/
  ml : κ → Int
  /-- The effect on the shared context. -/
  ctx : γ → κ → Int → γ
  event_ctx : ∀ g s r c, S.done s = false → (S.event g s r c).1 = ctx g (abs s) c
  event_pens : ∀ g s r c, S.done s = false → (S.event g s r c).2.2 = (ev g (abs s) c).2
  event_abs : ∀ g s r c, S.done s = false →
    (ev g (abs s) c).1 = if S.done (S.event g s r c).2.1 then none else some (abs (S.event g s r c).2.1)
  len : ∀ s, S.done s = false → S.matchLen s = ml (abs s)
  /-- The others do not notice. -/
  calm : ∀ g k k' c c', ev (ctx g k c) k' c' = ev g k' c'

variable {S : Sub γ σ} (V : View S κ)

theorem ev_fold (c : Int) : ∀ (l : List κ) (g : γ) (k : κ) (c' : Int), V.ev (l.foldl (fun g k => V.ctx g k c) g) k c' = V.ev g k c' := by
  intro l
  induction l with
  | nil => intro g k c'; rfl
  | cons x l ih => intro g k c'; rw [List.foldl_cons, ih, V.calm]

theorem deliver_ctx (r c : Int) : ∀ (l : List σ) (g : γ), (∀ s ∈ l, S.done s = false) →
    (deliver S r c g l).1 = (l.map V.abs).foldl (fun g k => V.ctx g k c) g := by
  intro l
  induction l with
  | nil => intro g _; rfl
  | cons s l ih =>
    intro g h
    have h1 := V.event_ctx g s r c (h s List.mem_cons_self)
    simp only [deliver, List.map_cons, List.foldl_cons]
    rw [ih _ fun s hs => h s (List.mem_cons_of_mem _ hs), h1]

theorem deliver_pens (r c : Int) (j : Nat) : ∀ (l : List σ) (g g0 : γ), (∀ k c', V.ev g k c' = V.ev g0 k c') → (∀ s ∈ l, S.done s = false) →
    penaltyAt ((deliver S r c g l).2.map (·.2)) j = ((l.map V.abs).map fun k => (V.ev g0 k c).2.getD j 0).sum := by
  intro l
  induction l with
  | nil => intro g g0 _ _; rfl
  | cons s l ih =>
    intro g g0 hg h
    have hs := h s List.mem_cons_self
    have h1 := V.event_ctx g s r c hs
    have h2 := V.event_pens g s r c hs
    have := ih (S.event g s r c).1 g0 (by intro k c'; rw [h1, V.calm, hg]) fun s hs => h s (List.mem_cons_of_mem _ hs)
    unfold penaltyAt at this ⊢
    simp only [deliver, List.map_cons, List.sum_cons]
    rw [this, h2, hg]

theorem deliver_lens (r c : Int) : ∀ (l : List σ) (g g0 : γ), (∀ k c', V.ev g k c' = V.ev g0 k c') → (∀ s ∈ l, S.done s = false) →
    ((deliver S r c g l).2.map fun o => o.2.length) = (l.map V.abs).map fun k => (V.ev g0 k c).2.length := by
  intro l
  induction l with
  | nil => intro g g0 _ _; rfl
  | cons s l ih =>
    intro g g0 hg h
    have hs := h s List.mem_cons_self
    have h1 := V.event_ctx g s r c hs
    have h2 := V.event_pens g s r c hs
    have := ih (S.event g s r c).1 g0 (by intro k c'; rw [h1, V.calm, hg]) fun s hs => h s (List.mem_cons_of_mem _ hs)
    simp only [deliver, List.map_cons]
    rw [this, h2, hg]

theorem perm_foldl_max {l l' : List Nat} (h : l.Perm l') : ∀ m, l.foldl max m = l'.foldl max m := by
  induction h with
  | nil => intro m; rfl
  | cons x _ ih => intro m; simp only [List.foldl_cons, ih]
  | swap x y l => intro m; simp only [List.foldl_cons]; rw [Nat.max_assoc, Nat.max_comm y x, ← Nat.max_assoc]
  | trans _ _ ih1 ih2 => intro m; rw [ih1, ih2]

theorem deliver_abs (r c : Int) : ∀ (l : List σ) (g g0 : γ), (∀ k c', V.ev g k c' = V.ev g0 k c') → (∀ s ∈ l, S.done s = false) →
    ((((deliver S r c g l).2.map (·.1)).filter fun s => !S.done s).map V.abs) = (l.map V.abs).filterMap fun k => (V.ev g0 k c).1 := by
  intro l
  induction l with
  | nil => intro g g0 _ _; rfl
  | cons s l ih =>
    intro g g0 hg h
    have hs := h s List.mem_cons_self
    have h1 := V.event_ctx g s r c hs
    have h2 := V.event_abs g s r c hs
    have := ih (S.event g s r c).1 g0 (by intro k c'; rw [h1, V.calm, hg]) fun s hs => h s (List.mem_cons_of_mem _ hs)
    simp only [deliver, List.map_cons, List.filter_cons, List.filterMap_cons]
    rw [← hg, h2]
    cases hd : S.done (S.event g s r c).2.1 with
    | true => simp only [Bool.not_true, Bool.false_eq_true, if_false, if_true]; exact this
    | false => simp only [Bool.not_false, if_true, Bool.false_eq_true, if_false, List.map_cons]; rw [this]

theorem longestOf_spec : ∀ (outs : List (σ × List Int)) (m : Int),
    m ≤ longestOf S m outs ∧ (∀ o ∈ outs, S.done o.1 = false → S.matchLen o.1 ≤ longestOf S m outs) ∧
      (longestOf S m outs = m ∨ ∃ o ∈ outs, S.done o.1 = false ∧ longestOf S m outs = S.matchLen o.1) := by
  intro outs
  induction outs with
  | nil => intro m; exact ⟨Int.le_refl _, by simp, Or.inl rfl⟩
  | cons o outs ih =>
    intro m
    have step : longestOf S m (o :: outs) = longestOf S (if S.done o.1 then m else if S.matchLen o.1 > m then S.matchLen o.1 else m) outs := rfl
    rw [step]
    obtain ⟨h1, h2, h3⟩ := ih (if S.done o.1 then m else if S.matchLen o.1 > m then S.matchLen o.1 else m)
    generalize longestOf S (if S.done o.1 then m else if S.matchLen o.1 > m then S.matchLen o.1 else m) outs = x at *
    cases hd : S.done o.1 with
    | true =>
      rw [hd] at h1 h3
      simp only [if_true] at h1 h3
      refine ⟨h1, ?_, ?_⟩
      · intro o' ho' hd'
        rcases List.mem_cons.mp ho' with rfl | h
        · rw [hd] at hd'; cases hd'
        · exact h2 o' h hd'
      · rcases h3 with h3 | ⟨o', ho', h3⟩
        · exact Or.inl h3
        · exact Or.inr ⟨o', List.mem_cons_of_mem _ ho', h3⟩
    | false =>
      rw [hd] at h1 h3
      simp only [Bool.false_eq_true, if_false] at h1 h3
      refine ⟨?_, ?_, ?_⟩
      · split at h1 <;> omega
      · intro o' ho' hd'
        rcases List.mem_cons.mp ho' with rfl | h
        · split at h1 <;> omega
        · exact h2 o' h hd'
      · rcases h3 with h3 | ⟨o', ho', h3⟩
        · split at h3
          · exact Or.inr ⟨o, List.mem_cons_self, hd, h3⟩
          · exact Or.inl h3
        · exact Or.inr ⟨o', List.mem_cons_of_mem _ ho', h3⟩

/-- The longest active match. -/
structure Longest (lam : Int) (L : List κ) : Prop where
  nonneg : 0 ≤ lam
  ge : ∀ k ∈ L, V.ml k ≤ lam
  eq : lam = 0 ∨ ∃ k ∈ L, lam = V.ml k

theorem longest_unique {lam lam' : Int} {L L' : List κ} (h : Longest V lam L) (h' : Longest V lam' L') (hp : L.Perm L') : lam = lam' := by
  have key : ∀ {a b : Int} {A B : List κ}, Longest V a A → Longest V b B → A.Perm B → a ≤ b := by
    intro a b A B ha hb hp
    rcases ha.eq with h | ⟨k, hk, h⟩
    · rw [h]; exact hb.nonneg
    · rw [h]; exact hb.ge k (hp.mem_iff.mp hk)
  have := key h h' hp
  have := key h' h hp.symm
  omega

/-- The queue of a publisher, up to order: only active subscribers, with the states `L`. -/
structure Holds (p : Pub σ) (L : List κ) : Prop where
  ord : Ord S p
  active : ∀ s ∈ p.q, S.done s = false
  perm : (p.q.map V.abs).Perm L

theorem perm_sum {l l' : List Int} (h : l.Perm l') : l.sum = l'.sum := by
  induction h with
  | nil => rfl
  | cons x _ ih => simp only [List.sum_cons, ih]
  | swap x y l => simp only [List.sum_cons]; omega
  | trans _ _ ih1 ih2 => exact ih1.trans ih2

theorem publish_holds {p : Pub σ} {L : List κ} (h : Holds V p L) (g : γ) (r c : Int) :
    ∃ g' p' lam gone, publish S g p r c = some (g', p', lam, gone) ∧
      Holds V p' (L.filterMap fun k => (V.ev g k c).1) ∧
      (∀ j, p'.total.getD j 0 = (L.map fun k => (V.ev g k c).2.getD j 0).sum) ∧
      p'.total.length = (L.map fun k => (V.ev g k c).2.length).foldl max 0 ∧
      Longest V lam (L.filterMap fun k => (V.ev g k c).1) ∧
      ∃ L' : List κ, L'.Perm L ∧ g' = L'.foldl (fun g k => V.ctx g k c) g := by
  obtain ⟨p', gone, h1, h2, h3, h4, h5⟩ := publish_spec S g p r c h.ord (by
    intro s hs hd; rw [h.active s hs] at hd; cases hd)
  have hrev : ∀ s ∈ p.q.reverse, S.done s = false := fun s hs => h.active s (List.mem_reverse.mp hs)
  have hperm : (p.q.reverse.map V.abs).Perm L := ((List.reverse_perm p.q).map V.abs).trans h.perm
  have hact : ∀ s ∈ p'.q, S.done s = false := by
    intro s hs
    have := (List.mem_filter.mp (h3.mem_iff.mp hs)).2
    simpa using this
  have habs : (p'.q.map V.abs).Perm (L.filterMap fun k => (V.ev g k c).1) := by
    refine (h3.map V.abs).trans ?_
    rw [deliver_abs V r c _ g g (fun _ _ => rfl) hrev]
    exact hperm.filterMap _
  refine ⟨_, p', _, gone, h1, ⟨h2, hact, habs⟩, ?_, ?_, ?_, _, hperm, deliver_ctx V r c _ g hrev⟩
  · intro j
    rw [h5, (foldl_addPens _ []).2 j]
    simp only [List.getD_nil, Int.zero_add]
    rw [deliver_pens V r c j _ g g (fun _ _ => rfl) hrev]
    exact perm_sum (hperm.map _)
  · rw [h5, (foldl_addPens _ []).1, deliver_lens V r c _ g g (fun _ _ => rfl) hrev]
    exact perm_foldl_max (hperm.map _) _
  · obtain ⟨l1, l2, l3⟩ := longestOf_spec (S := S) (deliver S r c g p.q.reverse).2 0
    have hmem : ∀ o ∈ (deliver S r c g p.q.reverse).2, S.done o.1 = false → o.1 ∈ p'.q := by
      intro o ho hd
      apply h3.mem_iff.mpr
      exact List.mem_filter.mpr ⟨List.mem_map_of_mem ho, by simp [hd]⟩
    refine ⟨l1, ?_, ?_⟩
    · intro k hk
      obtain ⟨s, hs, rfl⟩ := List.mem_map.mp (habs.mem_iff.mpr hk)
      obtain ⟨hs1, hs2⟩ := List.mem_filter.mp (h3.mem_iff.mp hs)
      obtain ⟨o, ho, rfl⟩ := List.mem_map.mp hs1
      have hd : S.done o.1 = false := by simpa using hs2
      rw [← V.len _ hd]
      exact l2 o ho hd
    · rcases l3 with l3 | ⟨o, ho, hd, l3⟩
      · exact Or.inl l3
      · refine Or.inr ⟨V.abs o.1, habs.mem_iff.mp (List.mem_map_of_mem (hmem o ho hd)), ?_⟩
        rw [l3, V.len _ hd]

theorem push_holds {p : Pub σ} {L : List κ} (h : Holds V p L) (s : σ) (hs : S.done s = false) :
    ∃ p', push S p s = some p' ∧ Holds V p' (L ++ [V.abs s]) := by
  obtain ⟨p', h1, h2, h3, h4⟩ := push_spec S h.ord s
  refine ⟨p', h1, h3, ?_, ?_⟩
  · intro x hx
    rcases List.mem_cons.mp (h2.mem_iff.mp hx) with rfl | hx
    · exact hs
    · exact h.active x hx
  · refine (h2.map V.abs).trans ?_
    rw [List.map_cons]
    exact (h.perm.cons _).trans (List.perm_append_singleton _ _).symm

theorem empty_holds : Holds V (Pub.empty : Pub σ) [] :=
  ⟨ord_empty S, (fun _ h => nomatch h), List.Perm.refl _⟩

theorem Holds.perm_of {p : Pub σ} {L L' : List κ} (h : Holds V p L) (hp : L.Perm L') : Holds V p L' :=
  ⟨h.ord, h.active, h.perm.trans hp⟩

/-- If at most one subscriber touches the context, the order does not matter. -/
theorem fold_single {L L' : List κ} (hp : L'.Perm L) (pr : κ → Bool) (c : Int) (h : ∀ k ∈ L, pr k = false → ∀ g, V.ctx g k c = g)
    (h1 : (L.filter pr).length ≤ 1) (g : γ) :
    L'.foldl (fun g k => V.ctx g k c) g = (L.filter pr).foldl (fun g k => V.ctx g k c) g := by
  have key : ∀ (l : List κ) (g : γ), (∀ k ∈ l, pr k = false → ∀ g, V.ctx g k c = g) →
      l.foldl (fun g k => V.ctx g k c) g = (l.filter pr).foldl (fun g k => V.ctx g k c) g := by
    intro l
    induction l with
    | nil => intro g _; rfl
    | cons k l ih =>
      intro g hl
      rw [List.foldl_cons, List.filter_cons]
      cases hk : pr k with
      | true => simp only [if_true, List.foldl_cons]; exact ih _ fun k hk => hl k (List.mem_cons_of_mem _ hk)
      | false =>
        simp only [Bool.false_eq_true, if_false]
        rw [hl k List.mem_cons_self hk]
        exact ih _ fun k hk => hl k (List.mem_cons_of_mem _ hk)
  rw [key L' g fun k hk => h k (hp.mem_iff.mp hk)]
  have hpf := hp.filter pr
  congr 1
  have hlen := hpf.length_eq
  match hL : L.filter pr, hL' : L'.filter pr with
  | [], [] => rfl
  | [x], [y] => rw [hL, hL'] at hpf; exact List.perm_singleton.mp hpf
  | [], _ :: _ => rw [hL, hL'] at hlen; simp at hlen
  | [_], [] => rw [hL, hL'] at hlen; simp at hlen
  | [_], _ :: _ :: _ => rw [hL, hL'] at hlen; simp at hlen
  | _ :: _ :: _, _ => rw [hL] at h1; simp at h1

end Bank
end Uax
