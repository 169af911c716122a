import Verif.PublisherProofs
import Verif.Recognizer

/-! Properties C16–C20: publishing rune events, the subscriber queue, recognizers. -/

namespace Uax
open Pub

variable {γ σ : Type}

/-! ### Reachable queues are ordered -/

theorem loop_ord (S : Sub γ σ) (r cls : Int) : ∀ (i : Nat) (g : γ) (p : Pub σ) (longest : Int),
    i ≤ p.q.length → Ord S p →
    ∃ g' p' l, publishLoop S r cls i g p longest = some (g', p', l) ∧ Ord S p' ∧
      p'.q.length = p.q.length := by
  intro i
  induction i with
  | zero => intro g p l _ ho; exact ⟨g, p, l, rfl, ho, rfl⟩
  | succ i ih =>
    intro g p longest hl ho
    have hi : i < p.q.length := by omega
    unfold publishLoop
    simp only [List.getElem?_eq_getElem hi, Option.bind_eq_bind, Option.bind_some]
    generalize he : S.event g p.q[i] r cls = ev
    obtain ⟨g1, s', pens⟩ := ev
    simp only [he]
    obtain ⟨p1, hf, hperm, ho1, _, _⟩ := fix_spec S (ord_set S ho i s' (addPens p.total pens)) (by simpa using hi)
    have hlen : p1.q.length = p.q.length := by rw [hperm.length_eq]; simp
    rw [hf]
    rw [Option.bind_some]
    obtain ⟨g2, p2, l2, h2, ho2, hl2⟩ := ih g1 p1 _ (by omega) ho1
    exact ⟨g2, p2, l2, h2, ho2, by omega⟩

theorem publish_ord (S : Sub γ σ) (g : γ) (p : Pub σ) (r cls : Int) (ho : Ord S p) :
    ∃ g' p' l gone, publish S g p r cls = some (g', p', l, gone) ∧ Ord S p' := by
  obtain ⟨g', p1, l, h1, ho1, _⟩ := loop_ord S r cls p.q.length g { p with total := [] } 0
    (Nat.le_refl _) ⟨ho.gap, ho.lo, ho.hi⟩
  obtain ⟨_, _, a3, _⟩ := popAllDone_spec S (p1.q.length + 1) p1 ho1 (by omega)
  refine ⟨g', _, l, (popAllDone S (p1.q.length + 1) p1).2, ?_, a3⟩
  unfold publish
  simp only [h1, Option.bind_eq_bind, Option.bind_some]

theorem step_ord (S : Sub γ σ) (g : γ) (p : Pub σ) (op : PubOp σ) (ho : Ord S p) :
    ∃ g' p', p.step S g op = some (g', p') ∧ Ord S p' := by
  cases op with
  | subscribe s =>
    obtain ⟨p', e, _, ho', _⟩ := push_spec S ho s
    exact ⟨g, p', by simp [Pub.step, e], ho'⟩
  | publish r cls =>
    obtain ⟨g', p', l, gone, e, ho'⟩ := publish_ord S g p r cls ho
    exact ⟨g', p', by simp [Pub.step, e], ho'⟩
  | popDone =>
    refine ⟨g, _, rfl, ?_⟩
    rcases popDone_spec S ho with ⟨e, _⟩ | ⟨s, p', e, _, _, ho', _⟩
    · rw [e]; exact ho
    · rw [e]; exact ho'
  | pop => exact ⟨g, _, rfl, pop_ord S ho⟩
  | change i s =>
    by_cases hi : i < p.q.length
    · obtain ⟨p', e, _, ho', _⟩ := fix_spec S (ord_set S ho i s p.total) (by simpa using hi)
      exact ⟨g, p', by simp only [Pub.step]; rw [e]; rfl, ho'⟩
    · have e : p.q.set i s = p.q := List.set_eq_of_length_le (by omega)
      refine ⟨g, p, ?_, ho⟩
      simp only [Pub.step, e, fix]
      rw [if_neg hi]; rfl

theorem reachable_ord (S : Sub γ σ) {g : γ} {p : Pub σ} (h : Pub.Reachable S g p) : Ord S p := by
  induction h with
  | new g => exact ord_empty S
  | step op _ he ih =>
    obtain ⟨g', p', e, ho⟩ := step_ord S _ _ op ih
    rw [e] at he; cases he; exact ho

/-! ### C16 -/

/-- C16. Publishing on any reachable publisher delivers the event exactly once to every
current subscriber (in the reverse of the queue order), provided that a subscriber which
is already done when the event is published stays done. The states of all subscribers after
the call, kept and unsubscribed together, are exactly the outcomes of that single delivery. -/
theorem C16_each_subscriber_exactly_once (S : Sub γ σ) (g : γ) (p : Pub σ) (r cls : Int)
    (hr : Pub.Reachable S g p)
    (hm : ∀ s ∈ p.q, S.done s = true → ∀ g', S.done (S.event g' s r cls).2.1 = true) :
    ∃ p' longest gone,
      p.publish S g r cls = some ((deliver S r cls g p.q.reverse).1, p', longest, gone) ∧
      (p'.q ++ gone).Perm ((deliver S r cls g p.q.reverse).2.map (·.1)) := by
  obtain ⟨p', gone, e, _, h1, h2, _⟩ := publish_spec S g p r cls (reachable_ord S hr) hm
  refine ⟨p', _, gone, e, ?_⟩
  refine (h1.append h2).trans ?_
  generalize (deliver S r cls g p.q.reverse).2.map (·.1) = l
  have := List.filter_append_perm (fun s => !S.done s) l
  simpa using this

/-- The same subscribers, instrumented with a log of the events they have received and an
identity. -/
structure Logged (σ : Type) where
  id : Nat
  st : σ
  log : List (Int × Int)

/-- Instrumentation: the log is extended with every received event; otherwise the
subscriber behaves as before. -/
def Sub.logged (S : Sub γ σ) : Sub γ (Logged σ) where
  event g s r cls :=
    let (g', st', pens) := S.event g s.st r cls
    (g', ⟨s.id, st', s.log ++ [(r, cls)]⟩, pens)
  matchLen s := S.matchLen s.st
  done s := S.done s.st

/-- A history: subscribe somebody, or publish an event. -/
inductive SubPub (σ : Type) where
  | sub (s : σ) | pub (r cls : Int)

/-- The events published in a history. -/
def SubPub.events : List (SubPub σ) → List (Int × Int)
  | [] => []
  | .sub _ :: h => events h
  | .pub r cls :: h => (r, cls) :: events h

/-- The (numbered) subscriptions of a history, numbering from `n`. -/
def SubPub.ids : Nat → List (SubPub σ) → List Nat
  | _, [] => []
  | n, .sub _ :: h => n :: ids (n + 1) h
  | n, .pub _ _ :: h => ids (n + 1) h

/-- Run a history on an instrumented publisher; operation number `n` subscribes a subscriber
with identity `n` and empty log. Collects all subscribers told `Unsubscribed`. -/
def runLogged (S : Sub γ σ) : Nat → γ → Pub (Logged σ) → List (Logged σ) → List (SubPub σ) →
    Option (Pub (Logged σ) × List (Logged σ))
  | _, _, p, gone, [] => some (p, gone)
  | n, g, p, gone, .sub s :: h =>
    (p.push S.logged ⟨n, s, []⟩).bind fun p => runLogged S (n + 1) g p gone h
  | n, g, p, gone, .pub r cls :: h =>
    (p.publish S.logged g r cls).bind fun x => runLogged S (n + 1) x.1 x.2.1 (gone ++ x.2.2.2) h

theorem deliver_logged (S : Sub γ σ) (r cls : Int) : ∀ (l : List (Logged σ)) (g : γ),
    (deliver S.logged r cls g l).2.map (fun o => (o.1.id, o.1.log))
      = l.map (fun s => (s.id, s.log ++ [(r, cls)])) := by
  intro l
  induction l with
  | nil => intro g; rfl
  | cons s l ih => intro g; simp [deliver, Sub.logged]; exact ih _

theorem runLogged_spec (S : Sub γ σ) (hm : ∀ g s r cls, S.done s = true → S.done (S.event g s r cls).2.1 = true)
    (full : List (SubPub σ)) :
    ∀ (h pre : List (SubPub σ)) (g : γ) (p : Pub (Logged σ)) (gone : List (Logged σ)),
    full = pre ++ h → Ord S.logged p →
    (∀ x ∈ p.q, x.log = SubPub.events (pre.drop (x.id + 1)) ∧ x.id < pre.length) →
    (∀ x ∈ gone, x.log <+: SubPub.events (full.drop (x.id + 1)) ∧ S.done x.st = true) →
    ∃ p' gone', runLogged S pre.length g p gone h = some (p', gone') ∧
      (∀ x ∈ p'.q, x.log = SubPub.events (full.drop (x.id + 1))) ∧
      (∀ x ∈ gone', x.log <+: SubPub.events (full.drop (x.id + 1)) ∧ S.done x.st = true) ∧
      ((p'.q ++ gone').map (·.id)).Perm ((p.q ++ gone).map (·.id) ++ SubPub.ids pre.length h) := by
  have hev : ∀ (a b : List (SubPub σ)), SubPub.events (a ++ b) = SubPub.events a ++ SubPub.events b := by
    intro a b
    induction a with
    | nil => rfl
    | cons x a ih => cases x <;> simp [SubPub.events, ih]
  intro h
  induction h with
  | nil =>
    intro pre g p gone hf ho hq hgone
    simp only [List.append_nil] at hf
    subst hf
    exact ⟨p, gone, rfl, fun x hx => (hq x hx).1, hgone, by simp [SubPub.ids]⟩
  | cons op h ih =>
    intro pre g p gone hf ho hq hgone
    have hf' : full = (pre ++ [op]) ++ h := by simp [hf]
    cases op with
    | sub s =>
      obtain ⟨p1, e, hperm, ho1, _⟩ := push_spec S.logged ho ⟨pre.length, s, []⟩
      obtain ⟨p', gone', hr, h1, h2, h3⟩ := ih (pre ++ [.sub s]) g p1 gone hf' ho1 (by
        intro x hx
        have := hperm.mem_iff.mp hx
        rcases List.mem_cons.mp this with rfl | hx'
        · simp [SubPub.events]
        · obtain ⟨a, b⟩ := hq x hx'
          refine ⟨?_, by simp; omega⟩
          rw [List.drop_append_of_le_length (by omega), hev, a]
          simp [SubPub.events]) hgone
      refine ⟨p', gone', ?_, h1, h2, h3.trans ?_⟩
      · simp only [runLogged, e, Option.bind_some]
        simpa using hr
      · simp only [List.length_append, List.length_singleton, SubPub.ids, List.map_append]
        have hp2 := hperm.map (·.id)
        simp only [List.map_cons] at hp2
        refine ((hp2.append_right _).append_right _).trans ?_
        simp only [List.cons_append, List.append_assoc]
        refine List.Perm.trans ?_ (List.Perm.append_left _ (List.perm_middle.symm))
        exact (List.perm_middle (l₁ := p.q.map (·.id))).symm
    | pub r cls =>
      obtain ⟨p1, gn, e, ho1, hk, hd, _⟩ := publish_spec S.logged g p r cls ho (by
        intro s _ hs g'; exact hm g' s.st r cls hs)
      have hlog := deliver_logged S r cls p.q.reverse g
      have hmem : ∀ y ∈ (deliver S.logged r cls g p.q.reverse).2.map (·.1),
          ∃ x ∈ p.q, y.id = x.id ∧ y.log = x.log ++ [(r, cls)] := by
        intro y hy
        obtain ⟨o, ho', rfl⟩ := List.mem_map.mp hy
        have : (o.1.id, o.1.log) ∈ p.q.reverse.map (fun s => (s.id, s.log ++ [(r, cls)])) := by
          rw [← hlog]; exact List.mem_map.mpr ⟨o, ho', rfl⟩
        obtain ⟨x, hx, hxe⟩ := List.mem_map.mp this
        simp only [Prod.mk.injEq] at hxe
        exact ⟨x, List.mem_reverse.mp hx, hxe.1.symm, hxe.2.symm⟩
      have hlogeq : ∀ y ∈ (deliver S.logged r cls g p.q.reverse).2.map (·.1),
          y.log = SubPub.events ((pre ++ [SubPub.pub (σ := σ) r cls]).drop (y.id + 1)) ∧ y.id < (pre ++ [SubPub.pub (σ := σ) r cls]).length := by
        intro y hy
        obtain ⟨x, hx, hid, hl⟩ := hmem y hy
        obtain ⟨a, b⟩ := hq x hx
        rw [hid]
        refine ⟨?_, by simp; omega⟩
        rw [hl, a, List.drop_append_of_le_length (by omega), hev]
        rfl
      obtain ⟨p', gone', hr, h1, h2, h3⟩ := ih (pre ++ [.pub r cls])
          (deliver S.logged r cls g p.q.reverse).1 p1 (gone ++ gn) hf' ho1 (by
        intro y hy
        exact hlogeq y (List.mem_filter.mp (hk.mem_iff.mp hy)).1) (by
        intro y hy
        rcases List.mem_append.mp hy with hy | hy
        · exact hgone y hy
        · have hy' := hd.mem_iff.mp hy
          rw [List.mem_filter] at hy'
          obtain ⟨a, b⟩ := hlogeq y hy'.1
          refine ⟨?_, hy'.2⟩
          rw [a, hf']
          rw [List.drop_append_of_le_length (l₂ := h) (by omega), hev]
          exact List.prefix_append _ _)
      refine ⟨p', gone', ?_, h1, h2, h3.trans ?_⟩
      · simp only [runLogged, e, Option.bind_some]
        simpa using hr
      · simp only [List.length_append, List.length_singleton, SubPub.ids]
        apply List.Perm.append_right
        have hids : ((deliver S.logged r cls g p.q.reverse).2.map (·.1)).map (·.id) = p.q.reverse.map (·.id) := by
          have := congrArg (List.map Prod.fst) hlog
          rw [List.map_map, List.map_map] at this
          rw [List.map_map]
          exact this
        have hall : (p1.q ++ gn).Perm ((deliver S.logged r cls g p.q.reverse).2.map (·.1)) := by
          refine (hk.append hd).trans ?_
          generalize (deliver S.logged r cls g p.q.reverse).2.map (·.1) = l
          have := List.filter_append_perm (fun s => !S.logged.done s) l
          simpa using this
        have hall' := hall.map (·.id)
        rw [hids] at hall'
        have : (p1.q ++ (gone ++ gn)).Perm ((p1.q ++ gn) ++ gone) := by
          rw [List.append_assoc]
          exact List.Perm.append_left _ List.perm_append_comm
        refine (this.map (·.id)).trans ?_
        rw [List.map_append, List.map_append (l₁ := p.q)]
        refine List.Perm.append_right _ (hall'.trans ?_)
        exact (List.reverse_perm p.q).map _

/-- C16 and C18 over whole histories. Instrument every subscriber with a log. After any
history of subscriptions and events on a new publisher no panic has occurred; whoever is still
subscribed has seen exactly the events published since their subscription, in order and once
each; whoever was told `Unsubscribed` is done and has seen an initial segment of these; and
everybody who ever subscribed is either still subscribed or was unsubscribed, exactly once. -/
theorem C16_history (S : Sub γ σ) (g : γ)
    (hm : ∀ g s r cls, S.done s = true → S.done (S.event g s r cls).2.1 = true)
    (h : List (SubPub σ)) :
    ∃ p gone, runLogged S 0 g Pub.empty [] h = some (p, gone) ∧
      (∀ x ∈ p.q, x.log = SubPub.events (h.drop (x.id + 1))) ∧
      (∀ x ∈ gone, x.log <+: SubPub.events (h.drop (x.id + 1)) ∧ S.done x.st = true) ∧
      ((p.q ++ gone).map (·.id)).Perm (SubPub.ids 0 h) := by
  have := runLogged_spec S hm h h [] g Pub.empty [] rfl (ord_empty _)
    (by intro x hx; simp [Pub.empty] at hx) (by intro x hx; simp at hx)
  simpa [Pub.empty] using this

/-! ### C17 -/

/-- C17. The published penalties are the index-wise sums of what the subscribers answered (and
the list is as long as the longest answer); the reported match length is the maximum over the
subscribers that remain active, and 0 if there is none with a positive one. -/
theorem C17_penalties_are_sums (S : Sub γ σ) (g : γ) (p : Pub σ) (r cls : Int)
    (hr : Pub.Reachable S g p)
    (hm : ∀ s ∈ p.q, S.done s = true → ∀ g', S.done (S.event g' s r cls).2.1 = true) :
    ∃ g' p' longest gone outs,
      p.publish S g r cls = some (g', p', longest, gone) ∧
      outs = (deliver S r cls g p.q.reverse).2 ∧
      (∀ j, p'.total.getD j 0 = penaltyAt (outs.map (·.2)) j) ∧
      (∀ j, j < p'.total.length ↔ ∃ o ∈ outs, j < o.2.length) ∧
      0 ≤ longest ∧
      (∀ s ∈ p'.q, S.matchLen s ≤ longest) ∧
      (longest = 0 ∨ ∃ s ∈ p'.q, S.matchLen s = longest) := by
  obtain ⟨p', gone, e, _, h1, h2, h3⟩ := publish_spec S g p r cls (reachable_ord S hr) hm
  refine ⟨_, p', _, gone, _, e, rfl, ?_, ?_, ?_⟩
  · intro j
    have := (foldl_addPens (deliver S r cls g p.q.reverse).2 []).2 j
    rw [h3, this]; simp
  · intro j
    have := (foldl_addPens (deliver S r cls g p.q.reverse).2 []).1
    rw [h3, this]
    have key : ∀ (l : List (σ × List Int)) (m : Nat),
        j < (l.map (fun o => o.2.length)).foldl max m ↔ (j < m ∨ ∃ o ∈ l, j < o.2.length) := by
      intro l
      induction l with
      | nil => intro m; simp
      | cons o l ih =>
        intro m
        simp only [List.map_cons, List.foldl_cons, ih, List.mem_cons, exists_eq_or_imp]
        constructor
        · rintro (h | h)
          · by_cases hj : j < m
            · exact Or.inl hj
            · exact Or.inr (Or.inl (by omega))
          · exact Or.inr (Or.inr h)
        · rintro (h | h | h)
          · exact Or.inl (by omega)
          · exact Or.inl (by omega)
          · exact Or.inr h
    rw [key]; simp
  · have hmem : ∀ s, s ∈ p'.q ↔ (∃ o ∈ (deliver S r cls g p.q.reverse).2, o.1 = s ∧ S.done s = false) := by
      intro s
      rw [h1.mem_iff, List.mem_filter, List.mem_map]
      constructor
      · rintro ⟨⟨o, ho, rfl⟩, hd⟩; exact ⟨o, ho, rfl, by simpa using hd⟩
      · rintro ⟨o, ho, rfl, hd⟩; exact ⟨⟨o, ho, rfl⟩, by simp [hd]⟩
    simp only [hmem]
    generalize (deliver S r cls g p.q.reverse).2 = outs
    have key : ∀ (l : List (σ × List Int)) (m : Int),
        m ≤ longestOf S m l ∧
        (∀ o ∈ l, S.done o.1 = false → S.matchLen o.1 ≤ longestOf S m l) ∧
        (longestOf S m l = m ∨ ∃ o ∈ l, S.done o.1 = false ∧ S.matchLen o.1 = longestOf S m l) := by
      intro l
      induction l with
      | nil => intro m; simp [longestOf]
      | cons o l ih =>
        intro m
        have e : longestOf S m (o :: l) = longestOf S (if S.done o.1 then m else if S.matchLen o.1 > m then S.matchLen o.1 else m) l := rfl
        rw [e]
        obtain ⟨a, b, c⟩ := ih (if S.done o.1 then m else if S.matchLen o.1 > m then S.matchLen o.1 else m)
        refine ⟨?_, ?_, ?_⟩
        · refine Int.le_trans ?_ a
          split
          · exact Int.le_refl _
          · split <;> omega
        · intro o' ho' hd
          rcases List.mem_cons.mp ho' with rfl | ho'
          · refine Int.le_trans ?_ a
            rw [hd]
            simp only [Bool.false_eq_true, if_false]
            split <;> omega
          · exact b o' ho' hd
        · rcases c with c | ⟨o', ho', hd, hl⟩
          · by_cases hd : S.done o.1 = true
            · left; rw [c, if_pos hd]
            · by_cases hg : S.matchLen o.1 > m
              · right; exact ⟨o, by simp, by simpa using hd, by rw [c, if_neg hd, if_pos hg]⟩
              · left; rw [c, if_neg hd, if_neg hg]
          · right; exact ⟨o', List.mem_cons_of_mem _ ho', hd, hl⟩
    obtain ⟨a, b, c⟩ := key outs 0
    refine ⟨a, ?_, ?_⟩
    · rintro s ⟨o, ho, rfl, hd⟩; exact b o ho hd
    · rcases c with c | ⟨o, ho, hd, hl⟩
      · exact Or.inl c
      · exact Or.inr ⟨o.1, ⟨o, ho, rfl, hd⟩, hl⟩

theorem deliver_unit (S : Sub Unit σ) (r cls : Int) : ∀ (l : List σ) (g : Unit),
    (deliver S r cls g l).2 = l.map (fun s => ((S.event () s r cls).2.1, (S.event () s r cls).2.2)) := by
  intro l
  induction l with
  | nil => intro g; rfl
  | cons s l ih => intro g; simp [deliver, ih]

/-- C17, independence of the subscription order: two reachable publishers with the same
subscribers in whatever order publish the same penalties and the same match length (for
subscribers that do not communicate through a shared context). -/
theorem C17_order_independent (S : Sub Unit σ) (p₁ p₂ : Pub σ) (r cls : Int)
    (h₁ : Pub.Reachable S () p₁) (h₂ : Pub.Reachable S () p₂) (hp : p₁.q.Perm p₂.q)
    (hm : ∀ s, S.done s = true → S.done (S.event () s r cls).2.1 = true) :
    ∃ p₁' p₂' longest gone₁ gone₂,
      p₁.publish S () r cls = some ((), p₁', longest, gone₁) ∧
      p₂.publish S () r cls = some ((), p₂', longest, gone₂) ∧
      p₁'.total = p₂'.total ∧ p₁'.q.Perm p₂'.q ∧ gone₁.Perm gone₂ := by
  obtain ⟨p₁', g₁, e₁, _, a1, a2, a3⟩ := publish_spec S () p₁ r cls (reachable_ord S h₁) (fun s _ hs _ => hm s hs)
  obtain ⟨p₂', g₂, e₂, _, b1, b2, b3⟩ := publish_spec S () p₂ r cls (reachable_ord S h₂) (fun s _ hs _ => hm s hs)
  have hperm : (deliver S r cls () p₁.q.reverse).2.Perm (deliver S r cls () p₂.q.reverse).2 := by
    rw [deliver_unit, deliver_unit]
    exact (((List.reverse_perm _).trans hp).trans (List.reverse_perm _).symm).map _
  have hl : longestOf S 0 (deliver S r cls () p₁.q.reverse).2 = longestOf S 0 (deliver S r cls () p₂.q.reverse).2 := by
    unfold longestOf
    apply hperm.foldl_eq'
    intro x _ y _ z
    repeat' split
    all_goals omega
  refine ⟨p₁', p₂', _, g₁, g₂, e₁, hl ▸ e₂, ?_, ?_, ?_⟩
  · rw [a3, b3]
    have hlen : ∀ (l₁ l₂ : List (σ × List Int)), l₁.Perm l₂ →
        l₁.foldl (fun t o => addPens t o.2) [] = l₂.foldl (fun t o => addPens t o.2) [] := by
      intro l₁ l₂ hp
      have f1 := foldl_addPens l₁ []
      have f2 := foldl_addPens l₂ []
      apply List.ext_getElem?
      intro j
      have hleq : (l₁.foldl (fun t o => addPens t o.2) []).length = (l₂.foldl (fun t o => addPens t o.2) []).length := by
        rw [f1.1, f2.1]
        apply (hp.map _).foldl_eq'
        intro x _ y _ z; omega
      have hval := (f1.2 j).trans (Eq.trans (by
        simp only [penaltyAt]
        congr 1
        have := (((hp.map (·.2)).map (fun l => l.getD j 0))).foldr_eq' (f := (· + ·)) (by intros; omega) (0 : Int)
        simpa [List.sum_eq_foldr] using this) (f2.2 j).symm)
      simp only [List.getD_eq_getElem?_getD] at hval
      by_cases hj : j < (l₁.foldl (fun t o => addPens t o.2) []).length
      · have hj2 := hleq ▸ hj
        rw [List.getElem?_eq_getElem hj, List.getElem?_eq_getElem hj2] at hval ⊢
        simpa using hval
      · rw [List.getElem?_eq_none (by omega), List.getElem?_eq_none (by omega)]
    exact hlen _ _ hperm
  · exact a1.trans (((hperm.map _).filter _).trans b1.symm)
  · exact a2.trans (((hperm.map _).filter _).trans b2.symm)

/-! ### C18 -/

/-- C18. After publishing, exactly those subscribers are gone that are done after having
received the event, each unsubscribed once; exactly the others are kept. -/
theorem C18_done_are_unsubscribed (S : Sub γ σ) (g : γ) (p : Pub σ) (r cls : Int)
    (hr : Pub.Reachable S g p)
    (hm : ∀ s ∈ p.q, S.done s = true → ∀ g', S.done (S.event g' s r cls).2.1 = true) :
    ∃ g' p' longest gone outs,
      p.publish S g r cls = some (g', p', longest, gone) ∧
      outs = (deliver S r cls g p.q.reverse).2.map (·.1) ∧
      gone.Perm (outs.filter S.done) ∧
      p'.q.Perm (outs.filter fun s => !S.done s) := by
  obtain ⟨p', gone, e, _, h1, h2, _⟩ := publish_spec S g p r cls (reachable_ord S hr) hm
  exact ⟨_, p', _, gone, _, e, rfl, h2, h1⟩

/-- C18: no client operation ever panics, in any history, with arbitrary subscribers;
in particular the check "internal queue order compromised" never fires. -/
theorem C18_no_panic (S : Sub γ σ) (g : γ) (p : Pub σ) (hr : Pub.Reachable S g p) (op : PubOp σ) :
    (p.step S g op).isSome := by
  obtain ⟨g', p', e, _⟩ := step_ord S g p op (reachable_ord S hr)
  rw [e]; rfl

/-! ### C19 -/

/-- C19, `Top`: if some subscriber is done, `Top` returns a done one. -/
theorem C19_top_done (S : Sub γ σ) (g : γ) (p : Pub σ) (hr : Pub.Reachable S g p)
    (hd : ∃ s ∈ p.q, S.done s = true) : ∃ t ∈ p.q, p.top = some t ∧ S.done t = true := by
  rcases popDone_spec S (reachable_ord S hr) with ⟨_, hall⟩ | ⟨s, p', _, hs, hq, _⟩
  · obtain ⟨s, hs, hd⟩ := hd
    rw [hall s hs] at hd; cases hd
  · refine ⟨s, by rw [hq]; simp, ?_, hs⟩
    unfold Pub.top; rw [hq]; simp

/-- C19, `PopDone`: it returns nil exactly if nobody is done; otherwise it removes one done
subscriber and nobody else. -/
theorem C19_popDone (S : Sub γ σ) (g : γ) (p : Pub σ) (hr : Pub.Reachable S g p) :
    ((p.popDone S).2 = none ↔ ∀ s ∈ p.q, S.done s = false) ∧
    (∀ s, (p.popDone S).2 = some s → S.done s = true ∧ p.q.Perm (s :: (p.popDone S).1.q)) ∧
    ((p.popDone S).2 = none → (p.popDone S).1 = p) := by
  rcases popDone_spec S (reachable_ord S hr) with ⟨e, hall⟩ | ⟨s, p', e, hs, hq, _⟩
  · rw [e]; simp; exact fun s hs => by simpa using hall s hs
  · rw [e]
    refine ⟨⟨fun h => by simp at h, fun h => ?_⟩, ?_, fun h => by simp at h⟩
    · have := h s (by rw [hq]; simp)
      rw [hs] at this; cases this
    · intro s' h; cases h
      refine ⟨hs, ?_⟩
      rw [hq]
      exact List.perm_append_comm (l₁ := p'.q) (l₂ := [s])

/-- C19, `Fix`: changing one subscriber and calling `Fix` keeps all subscribers, and the
resulting queue is again one to which the theorems above apply. -/
theorem C19_fix (S : Sub γ σ) (g : γ) (p : Pub σ) (hr : Pub.Reachable S g p) (i : Nat) (s : σ) :
    ∃ p', p.step S g (.change i s) = some (g, p') ∧ p'.q.Perm (p.q.set i s) ∧
      Pub.Reachable S g p' ∧ ((∃ x ∈ p'.q, S.done x = true) → ∃ t, p'.top = some t ∧ S.done t = true) := by
  have ho := reachable_ord S hr
  have key : ∃ p', p.step S g (.change i s) = some (g, p') ∧ p'.q.Perm (p.q.set i s) := by
    by_cases hi : i < p.q.length
    · obtain ⟨p', e, hp, _⟩ := fix_spec S (ord_set S ho i s p.total) (by simpa using hi)
      exact ⟨p', by simp only [Pub.step]; rw [e]; rfl, hp⟩
    · have e : p.q.set i s = p.q := List.set_eq_of_length_le (by omega)
      refine ⟨p, ?_, by rw [e]⟩
      simp only [Pub.step, e, fix]
      rw [if_neg hi]; rfl
  obtain ⟨p', e, hp⟩ := key
  have hr' := Pub.Reachable.step _ hr e
  refine ⟨p', e, hp, hr', fun h => ?_⟩
  obtain ⟨t, _, h1, h2⟩ := C19_top_done S g p' hr' h
  exact ⟨t, h1, h2⟩

/-- C19, `Pop` removes the topmost subscriber, also if it is not done. -/
theorem C19_pop (p : Pub σ) : p.pop.2 = p.top ∧
    (∀ s, p.pop.2 = some s → p.q = p.pop.1.q ++ [s]) := by
  unfold Pub.pop
  cases h : p.q[p.q.length - 1]? with
  | none => exact ⟨h.symm, fun s hs => by simp at hs⟩
  | some t => exact ⟨h.symm, fun s hs => by cases hs; exact top_eq h⟩

/-! ### C20 -/

theorem pool_clean {α υ : Type} (ops : List (PoolOp α υ)) : ∀ (p : RecPool α υ),
    (∀ r ∈ p.idle, ∃ u, r = { (Rec.zero : Rec α υ) with userData := u }) →
    ∀ r ∈ (ops.foldl RecPool.step p).idle, ∃ u, r = { (Rec.zero : Rec α υ) with userData := u } := by
  induction ops with
  | nil => intro p h; exact h
  | cons op ops ih =>
    intro p h
    apply ih
    cases op with
    | borrow k cls fn => intro r hr; exact h r (List.mem_of_mem_eraseIdx hr)
    | use i r => exact h
    | release i =>
      intro r hr
      simp only [RecPool.step] at hr
      split at hr
      · exact h r hr
      · rcases List.mem_cons.mp hr with rfl | hr
        · exact ⟨_, rfl⟩
        · exact h r hr

/-- C20. After any history of borrowing, arbitrary use and release of pooled recognizers, a
newly borrowed recognizer equals one made by `NewRecognizer` in every field but the client's
`UserData`. -/
theorem C20_pooled_like_new {α υ : Type} (ops : List (PoolOp α υ)) (k : Nat) (cls : Int)
    (fn : Option α) :
    ∃ r u, (((ops.foldl RecPool.step ⟨[], []⟩).step (.borrow k cls fn)).out)[0]? = some r ∧
      r = { (Rec.new cls fn : Rec α υ) with userData := u } := by
  have h := pool_clean ops ⟨[], []⟩ (by intro r hr; simp at hr)
  generalize ops.foldl RecPool.step ⟨[], []⟩ = p at *
  simp only [RecPool.step]
  cases he : p.idle[k]? with
  | none => exact ⟨_, none, rfl, rfl⟩
  | some o =>
    obtain ⟨u, rfl⟩ := h o (List.mem_of_getElem? he)
    exact ⟨_, u, rfl, rfl⟩

/-- The observable life of a recognizer: for each rune event, the penalties returned, whether it
is done afterwards, and its match length. -/
def Rec.observe {γ α υ : Type} (run : α → γ → Rec α υ → Int → Int → γ × Rec α υ × Option α) :
    γ → Rec α υ → List (Int × Int) → List (List Int × Bool × Int)
  | _, _, [] => []
  | g, r, (c, cls) :: es =>
    let (g', r', ps) := Rec.runeEvent run g r c cls
    (ps, r'.done, r'.matchLen) :: Rec.observe run g' r' es

/-- A recognizer without its user data. -/
def Rec.withoutUserData {α υ : Type} (r : Rec α υ) : Rec α υ := { r with userData := none }

/-- C20, behaviour: if the state functions do not look at left-over user data, then the pooled
recognizer is indistinguishable from a new one, for every rune sequence. -/
theorem C20_behaves_like_new {γ α υ : Type}
    (run : α → γ → Rec α υ → Int → Int → γ × Rec α υ × Option α)
    (hrun : ∀ fn g r u c cls,
      (run fn g { r with userData := u } c cls).1 = (run fn g r c cls).1 ∧
      (run fn g { r with userData := u } c cls).2.2 = (run fn g r c cls).2.2 ∧
      (run fn g { r with userData := u } c cls).2.1.withoutUserData
        = (run fn g r c cls).2.1.withoutUserData)
    (ops : List (PoolOp α υ)) (k : Nat) (cls : Int) (fn : Option α) (g : γ) (es : List (Int × Int)) :
    ∃ r, (((ops.foldl RecPool.step ⟨[], []⟩).step (.borrow k cls fn)).out)[0]? = some r ∧
      Rec.observe run g r es = Rec.observe run g (Rec.new cls fn) es := by
  obtain ⟨r, u, h, rfl⟩ := C20_pooled_like_new ops k cls fn
  refine ⟨_, h, ?_⟩
  have key : ∀ (es : List (Int × Int)) (g : γ) (r r' : Rec α υ),
      r.withoutUserData = r'.withoutUserData →
      Rec.observe run g r es = Rec.observe run g r' es := by
    intro es
    induction es with
    | nil => intros; rfl
    | cons e es ih =>
      intro g r r' hrr
      obtain ⟨e1, m1, u1, p1, n1⟩ := r
      obtain ⟨e2, m2, u2, p2, n2⟩ := r'
      simp only [Rec.withoutUserData, Rec.mk.injEq, true_and] at hrr
      obtain ⟨rfl, rfl, rfl, rfl⟩ := hrr
      obtain ⟨c, cl⟩ := e
      simp only [Rec.observe, Rec.runeEvent]
      cases n1 with
      | none => simp only [Rec.done, Option.isNone_none, List.cons.injEq, true_and]; exact ih _ _ _ rfl
      | some f =>
        obtain ⟨a1, a2, a3⟩ := hrun f g ⟨e1, m1, u2, p1, some f⟩ u1 c cl
        simp only at a1 a2 a3
        rcases hx : run f g ⟨e1, m1, u1, p1, some f⟩ c cl with ⟨x1, ⟨xe, xm, xu, xp, xn⟩, x3⟩
        rcases hy : run f g ⟨e1, m1, u2, p1, some f⟩ c cl with ⟨y1, ⟨ye, ym, yu, yp, yn⟩, y3⟩
        rw [hx, hy] at a1 a2 a3
        simp only [hx, hy]
        simp only [Rec.withoutUserData, Rec.mk.injEq, true_and] at a1 a2 a3
        obtain ⟨rfl, rfl, rfl, rfl⟩ := a3
        subst a1 a2
        simp only [Rec.done, List.cons.injEq]
        exact ⟨rfl, ih _ _ _ rfl⟩
  exact key es g _ _ rfl

/-- Recognizers satisfy the hypothesis of C16–C18: a done recognizer stays done. -/
theorem recognizer_stays_done {α υ : Type}
    (run : α → γ → Rec α υ → Int → Int → γ × Rec α υ × Option α) (g : γ) (r : Rec α υ) (c cls : Int)
    (hd : (Rec.sub run).done r = true) :
    (Rec.sub run).done ((Rec.sub run).event g r c cls).2.1 = true := by
  simp only [Rec.sub, Rec.done, Option.isNone_iff_eq_none, Rec.runeEvent] at *
  simp [hd]

section Examples

/-- A toy subscriber: counts down, is done at 0 and then answers two penalties. -/
private def toy : Sub Unit Int where
  event _ s _ _ := ((), s - 1, if s ≤ 1 then [s, 7] else [])
  matchLen s := s
  done s := decide (s ≤ 0)

private theorem toy_stays_done : ∀ g s r cls, toy.done s = true → toy.done (toy.event g s r cls).2.1 = true := by
  intro g s r cls h; simp [toy] at *; omega

/-- Three subscribers, one of which finishes: hypotheses met, and the result is as claimed. -/
example : ((Pub.mk [1, 3, 1] 3 []).publish toy () 65 0) =
    some ((), ⟨[2], 1, [2, 14]⟩, 2, [0, 0]) := by decide

private theorem ex_reach : Pub.Reachable toy () ⟨[1, 3], 2, []⟩ :=
  .step (.subscribe 3) (.step (.subscribe 1) (.new ()) (by rfl)) (by rfl)

example : ∃ s ∈ (Pub.mk [1, 3] 2 []).q, toy.matchLen s = 3 := by decide
example := C16_each_subscriber_exactly_once toy () _ 65 0 ex_reach (fun s _ h g => toy_stays_done g s 65 0 h)
example := C16_history toy () toy_stays_done [.sub 2, .pub 65 0, .sub 1, .pub 66 0]

/-- The hypothesis of C16 is needed: a subscriber that was done when subscribed and
becomes active again on an event is notified twice, and an innocent one not at all. -/
private def lazarus : Sub Unit (Nat × Nat × Bool) where
  event _ s _ _ := ((), (s.1, s.2.1 + 1, false), [])
  matchLen _ := 1
  done s := s.2.2

theorem C16_needs_stay_done :
    ∃ p, Pub.Reachable lazarus () p ∧ p.q = [(0, 0, true), (1, 0, true)] ∧
      (p.publish lazarus () 65 0).map (fun x => (x.2.1.q, x.2.2.2))
        = some ([(1, 2, false)], [(0, 0, true)]) := by
  refine ⟨⟨[(0, 0, true), (1, 0, true)], 0, []⟩, ?_, rfl, by decide⟩
  exact .step (.subscribe (1, 0, true)) (.step (.subscribe (0, 0, true)) (.new ()) (by rfl)) (by rfl)

/-- A pooled recognizer with a rich earlier life. -/
example : ((([PoolOp.borrow 0 5 (some 'a'), .use 0 ⟨9, 3, some "x", [1, 2], some 'b'⟩, .release 0]
    : List (PoolOp Char String)).foldl RecPool.step ⟨[], []⟩).step (.borrow 0 7 (some 'c'))).out
    = [⟨7, 0, some "x", [], some 'c'⟩] := by decide

end Examples

end Uax
