import Verif.BidiReorderProofs

/-
Lemmas about reordering of nested runs.
-/
namespace Uax.Bidi

/-- Where a scrap is: the scraps it is nested in, each with the number of the
nested run, from the inside to the outside. -/
abbrev Place := List (Class × Nat × Nat × Nat)

mutual

/-- All scraps with their places. -/
def nodes (up : Place) : List Scrap → List (Place × Class × Nat × Nat × DirContext)
  | [] => []
  | ⟨c, l, r, x, ch⟩ :: rest => (up, c, l, r, x) :: (nodesIn up c l r 0 ch ++ nodes up rest)

/-- All scraps of nested runs, from number `k` on. -/
def nodesIn (up : Place) (c : Class) (l r : Nat) (k : Nat) : List (List Scrap) → List (Place × Class × Nat × Nat × DirContext)
  | [] => []
  | ch :: more => nodes ((c, l, r, k) :: up) ch ++ nodesIn up c l r (k + 1) more

end

theorem nodes_cons (up : Place) (s : Scrap) (rest : List Scrap) :
    nodes up (s :: rest) = (up, s.clz, s.l, s.r, s.ctx) :: (nodesIn up s.clz s.l s.r 0 s.children ++ nodes up rest) := by
  cases s; rw [nodes]

theorem nodes_perm (up : Place) {a b : List Scrap} (h : a.Perm b) : (nodes up a).Perm (nodes up b) := by
  induction h with
  | nil => exact List.Perm.refl _
  | cons x _ ih =>
    rw [nodes_cons, nodes_cons]
    exact List.Perm.cons _ (List.Perm.append_left _ ih)
  | swap x y l =>
    rw [nodes_cons, nodes_cons, nodes_cons, nodes_cons]
    refine List.Perm.trans ?_ (List.Perm.trans (List.perm_append_comm_assoc
      ((up, y.clz, y.l, y.r, y.ctx) :: nodesIn up y.clz y.l y.r 0 y.children)
      ((up, x.clz, x.l, x.r, x.ctx) :: nodesIn up x.clz x.l x.r 0 x.children) (nodes up l)) ?_)
    · exact List.Perm.of_eq (by simp)
    · exact List.Perm.of_eq (by simp)
  | trans _ _ h1 h2 => exact h1.trans h2

/-- No scrap, nested or not, has the class NULL. -/
def NoNull (scraps : List Scrap) : Prop := ∀ up, ∀ x ∈ nodes up scraps, x.2.1 ≠ cNULL

theorem reorderLoop_perm (d : Dir) : ∀ (n pos st : Nat) (coll : Bool) (scraps : List Scrap),
    (reorderLoop d n pos st coll scraps).Perm scraps := by
  intro n
  induction n with
  | zero => intro pos st coll scraps; exact List.Perm.refl _
  | succ n ih =>
    intro pos st coll scraps
    rw [reorderLoop]
    cases scraps[pos]? with
    | none => exact List.Perm.refl _
    | some s =>
      have key : ∀ (x : Bool × Nat × List Scrap), x.2.2.Perm scraps →
          (match x with
            | (collecting, startRunR, scraps) =>
              if n = 0 ∨ s.clz = cNULL then scraps else reorderLoop d n (pos + 1) startRunR collecting scraps).Perm scraps := by
        rintro ⟨c, t, l⟩ h
        show (if n = 0 ∨ s.clz = cNULL then l else reorderLoop d n (pos + 1) t c l).Perm scraps
        split
        · exact h
        · exact (ih _ _ _ _).trans h
      refine key (if coll = false then
          if level s d > 0 then (true, pos, scraps) else (false, st, scraps)
        else if level s d = 0 then (false, 0, reverse scraps st pos)
        else if n = 0 then (true, st, reverse scraps st (pos + 1))
        else (true, st, scraps)) ?_
      cases coll with
      | false => by_cases h : level s d > 0 <;> simp [h]
      | true =>
        by_cases h : level s d = 0
        · simp [h, reverse_perm]
        · by_cases hn : n = 0
          · simp [h, hn, reverse_perm]
          · simp [h, hn]

theorem reverseWithoutIsolates_perm (scraps : List Scrap) : (reverseWithoutIsolates scraps).Perm scraps := by
  unfold reverseWithoutIsolates
  split
  · exact reverse_perm _ _ _
  · exact List.Perm.refl _

mutual

theorem reorderKids_nodes (d : Dir) : ∀ (scraps out : List Scrap) (up : Place), reorderKids d scraps = some out →
    (nodes up out).Perm (nodes up scraps)
  | [], out, up, h => by
    rw [reorderKids] at h; cases h; exact List.Perm.refl _
  | ⟨c, l, r, x, ch⟩ :: rest, out, up, h => by
    rw [reorderKids] at h
    cases hc : reorderChildren d ch with
    | none => rw [hc] at h; cases h
    | some ch' =>
      rw [hc] at h
      have h1 := reorderChildren_nodes d ch ch' up c l r 0 hc
      simp only at h
      by_cases hz : c = cNULL
      · rw [if_pos hz] at h
        cases h
        rw [nodes, nodes]
        exact List.Perm.cons _ (h1.append_right _)
      · rw [if_neg hz] at h
        cases hr : reorderKids d rest with
        | none => rw [hr] at h; cases h
        | some rest' =>
          rw [hr] at h
          cases h
          have h2 := reorderKids_nodes d rest rest' up hr
          rw [nodes, nodes]
          exact List.Perm.cons _ (h1.append h2)

theorem reorderChildren_nodes (d : Dir) : ∀ (chs out : List (List Scrap)) (up : Place) (c : Class) (l r k : Nat),
    reorderChildren d chs = some out → (nodesIn up c l r k out).Perm (nodesIn up c l r k chs)
  | [], out, up, c, l, r, k, h => by
    rw [reorderChildren] at h; cases h; exact List.Perm.refl _
  | ch :: rest, out, up, c, l, r, k, h => by
    rw [reorderChildren] at h
    cases hd : findEmbeddingDir ch d with
    | none => rw [hd] at h; cases h
    | some dir =>
      rw [hd] at h
      simp only at h
      cases hk : reorderKids dir ch with
      | none => rw [hk] at h; cases h
      | some ch' =>
        rw [hk] at h
        simp only at h
        have h1 := reorderKids_nodes dir ch ch' ((c, l, r, k) :: up) hk
        cases hr : reorderChildren d rest with
        | none => rw [hr] at h; cases h
        | some rest' =>
          rw [hr] at h
          have h2 := reorderChildren_nodes d rest rest' up c l r (k + 1) hr
          cases h
          rw [nodesIn, nodesIn]
          refine List.Perm.append ?_ h2
          refine List.Perm.trans (nodes_perm _ ?_) h1
          split
          · exact (reverseWithoutIsolates_perm _).trans (reorderLoop_perm _ _ _ _ _ _)
          · exact reorderLoop_perm _ _ _ _ _ _

end

theorem reorder_nodes (d : Dir) (scraps out : List Scrap) (h : reorder d scraps = some out) (up : Place) :
    (nodes up out).Perm (nodes up scraps) := by
  unfold reorder at h
  cases hk : reorderKids d scraps with
  | none => rw [hk] at h; cases h
  | some l =>
    rw [hk] at h
    cases h
    exact (nodes_perm up (reorderLoop_perm _ _ _ _ _ _)).trans (reorderKids_nodes d scraps l up hk)

/-! ### When reorder does not panic -/

/-- No nested run begins with an FSI or a PDI. -/
inductive Bracketed : List Scrap → Prop
  | mk (scraps : List Scrap) (h : ∀ s ∈ scraps, ∀ ch ∈ s.children, ∀ f, ch.head? = some f → f.clz ≠ cFSI ∧ f.clz ≠ cPDI)
      (hc : ∀ s ∈ scraps, ∀ ch ∈ s.children, Bracketed ch) : Bracketed scraps

theorem Bracketed.tail {s : Scrap} {rest : List Scrap} (h : Bracketed (s :: rest)) : Bracketed rest := by
  cases h with
  | mk _ h hc => exact ⟨_, fun t ht => h t (by simp [ht]), fun t ht => hc t (by simp [ht])⟩

theorem findEmbeddingDir_some {ch : List Scrap} (d : Dir) (h : ∀ f, ch.head? = some f → f.clz ≠ cFSI ∧ f.clz ≠ cPDI) :
    ∃ dir, findEmbeddingDir ch d = some dir := by
  cases ch with
  | nil => exact ⟨d, rfl⟩
  | cons f l =>
    obtain ⟨h1, h2⟩ := h f rfl
    unfold findEmbeddingDir
    simp only
    rw [if_neg h1, if_neg h2]
    split
    · exact ⟨_, rfl⟩
    · split <;> exact ⟨_, rfl⟩

mutual

theorem reorderKids_some (d : Dir) : ∀ (scraps : List Scrap), Bracketed scraps → ∃ out, reorderKids d scraps = some out
  | [], _ => ⟨[], by rw [reorderKids]⟩
  | ⟨c, l, r, x, ch⟩ :: rest, h => by
    have hh : (∀ c' ∈ ch, ∀ f, c'.head? = some f → f.clz ≠ cFSI ∧ f.clz ≠ cPDI) ∧ ∀ c' ∈ ch, Bracketed c' := by
      cases h with
      | mk _ h hc => exact ⟨h _ (List.mem_cons_self ..), hc _ (List.mem_cons_self ..)⟩
    obtain ⟨ch', h1⟩ := reorderChildren_some d ch hh.1 hh.2
    obtain ⟨rest', h2⟩ := reorderKids_some d rest h.tail
    rw [reorderKids, h1, h2]
    simp only
    split <;> exact ⟨_, rfl⟩

theorem reorderChildren_some (d : Dir) : ∀ (chs : List (List Scrap)),
    (∀ c' ∈ chs, ∀ f, c'.head? = some f → f.clz ≠ cFSI ∧ f.clz ≠ cPDI) → (∀ c' ∈ chs, Bracketed c') →
    ∃ out, reorderChildren d chs = some out
  | [], _, _ => ⟨[], by rw [reorderChildren]⟩
  | ch :: rest, hf, hb => by
    obtain ⟨dir, h0⟩ := findEmbeddingDir_some d (hf ch (by simp))
    obtain ⟨ch', h1⟩ := reorderKids_some dir ch (hb ch (by simp))
    obtain ⟨rest', h2⟩ := reorderChildren_some d rest (fun c h => hf c (by simp [h])) (fun c h => hb c (by simp [h]))
    rw [reorderChildren, h0]
    simp only
    rw [h1]
    simp only
    rw [h2]
    exact ⟨_, rfl⟩

end

theorem reorder_some (d : Dir) (scraps : List Scrap) (h : Bracketed scraps) : ∃ out, reorder d scraps = some out := by
  obtain ⟨out, h⟩ := reorderKids_some d scraps h
  exact ⟨reorderFlat d out, by rw [reorder, h]; rfl⟩

/-! ### Text from left to right only -/

/-- There is nothing which is not from left to right. -/
inductive OnlyLtr : List Scrap → Prop
  | mk (scraps : List Scrap)
      (h : ∀ s ∈ scraps, s.clz ≠ cR ∧ s.clz ≠ cEN ∧ s.clz ≠ cAN ∧ s.clz ≠ cNULL)
      (hf : ∀ s ∈ scraps, ∀ ch ∈ s.children, ∀ f, ch.head? = some f → f.clz ≠ cFSI ∧ f.clz ≠ cPDI ∧ f.clz ≠ cRLI)
      (hc : ∀ s ∈ scraps, ∀ ch ∈ s.children, OnlyLtr ch) : OnlyLtr scraps

theorem flipBlocks_none {α : Type} (p : α → Bool) : ∀ (l acc : List α), (∀ x ∈ l, p x = false) →
    flipBlocks p acc l = acc ++ l := by
  intro l
  induction l with
  | nil => intro acc _; simp [flipBlocks]
  | cons s rest ih =>
    intro acc h
    rw [flipBlocks, if_neg (by simp [h s (by simp)]), ih [] (fun x hx => h x (by simp [hx]))]
    simp

theorem reorderFlat_ltr (scraps : List Scrap)
    (h : ∀ s ∈ scraps, s.clz ≠ cR ∧ s.clz ≠ cEN ∧ s.clz ≠ cAN ∧ s.clz ≠ cNULL) : reorderFlat .ltr scraps = scraps := by
  rw [reorderFlat_eq .ltr scraps (fun s hs => (h s hs).2.2.2), flipBlocks_none]
  · rfl
  · intro s hs
    obtain ⟨h1, h2, h3, _⟩ := h s hs
    simp [level, h1, h2, h3]

mutual

theorem reorderKids_ltr : ∀ (scraps : List Scrap), OnlyLtr scraps → reorderKids .ltr scraps = some scraps
  | [], _ => by rw [reorderKids]
  | ⟨c, l, r, x, ch⟩ :: rest, h => by
    have hh : (∀ c' ∈ ch, ∀ f, c'.head? = some f → f.clz ≠ cFSI ∧ f.clz ≠ cPDI ∧ f.clz ≠ cRLI) ∧ (∀ c' ∈ ch, OnlyLtr c') ∧ OnlyLtr rest := by
      cases h with
      | mk _ h hf hc =>
        exact ⟨hf _ (List.mem_cons_self ..), hc _ (List.mem_cons_self ..),
          ⟨_, fun t ht => h t (by simp [ht]), fun t ht => hf t (by simp [ht]), fun t ht => hc t (by simp [ht])⟩⟩
    rw [reorderKids, reorderChildren_ltr ch hh.1 hh.2.1, reorderKids_ltr rest hh.2.2]
    simp only
    split <;> rfl

theorem reorderChildren_ltr : ∀ (chs : List (List Scrap)),
    (∀ c' ∈ chs, ∀ f, c'.head? = some f → f.clz ≠ cFSI ∧ f.clz ≠ cPDI ∧ f.clz ≠ cRLI) → (∀ c' ∈ chs, OnlyLtr c') →
    reorderChildren .ltr chs = some chs
  | [], _, _ => by rw [reorderChildren]
  | ch :: rest, hf, hb => by
    have h0 : findEmbeddingDir ch .ltr = some .ltr := by
      cases ch with
      | nil => rfl
      | cons f l =>
        obtain ⟨h1, h2, h3⟩ := hf (f :: l) (by simp) f rfl
        unfold findEmbeddingDir
        simp [h1, h2, h3]
    have h1 := reorderKids_ltr ch (hb ch (by simp))
    have h2 := reorderChildren_ltr rest (fun c h => hf c (by simp [h])) (fun c h => hb c (by simp [h]))
    have h3 : reorderFlat .ltr ch = ch := by
      have := hb ch (by simp)
      cases this with
      | mk _ h _ _ => exact reorderFlat_ltr ch h
    rw [reorderChildren, h0]
    simp only
    rw [h1]
    simp only
    rw [h2, h3]
    rfl

end

theorem reorder_ltr (scraps : List Scrap) (h : OnlyLtr scraps) : reorder .ltr scraps = some scraps := by
  rw [reorder, reorderKids_ltr scraps h]
  cases h with
  | mk _ h _ _ => rw [Option.map_some, reorderFlat_ltr scraps h]

end Uax.Bidi
