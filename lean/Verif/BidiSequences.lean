import Verif.BidiHouseSim

/-
The bracket pairs found in a text with isolates.
-/
namespace Uax.Bidi
open Spec

theorem pass_quiet {H : House} {s : Scrap} (h : isIsolate s = false) : H.pass s = H := by
  unfold House.pass
  rw [if_neg (by rw [h]; decide)]

theorem tell_quiet {H : House} {r : Nat} {s : Scrap} (h : isBracket s = false) : H.tell r s = H := by
  unfold House.tell
  rw [if_pos h]

theorem setHandler_same {hs : List Handler} {i : Nat} {f : Handler → Handler} (h : ∀ x, hs[i]? = some x → f x = x) : setHandler hs i f = hs := by
  apply List.ext_getElem?
  intro j
  rw [set_get]
  split
  · rename_i e
    subst e
    cases hq : hs[i]? with
    | none => rfl
    | some x => rw [Option.map_some, h x hq]
  · rfl

/-- A mark after a bracket changes nothing. -/
theorem tell_mark {H : House} {n : Nat} {ks : List Nat} {done : List (Nat × Bracket)} {pos : Nat} (S : Kept H n ks done pos) {r : Nat} (s : Scrap)
    (n1 : pairedBrackets.find? (fun p => p.1 == r) = none) (n2 : ∀ p ∈ pairedBrackets, p.2 ≠ r) : H.tell r s = H := by
  unfold House.tell
  split
  · rfl
  · split
    · rw [setHandler_same]
      intro h _
      unfold Handler.pushOpening pushStack
      rw [table_same, n1]
      split
      · rfl
      · split <;> rfl
    · rw [setHandler_same]
      intro h hh
      have q := find_opens h r s
      cases hd : h.opens.dropWhile (fun x => x.1 ≠ r) with
      | nil => rw [hd] at q; exact q
      | cons y below =>
        have hy : y ∈ h.opens := (List.dropWhile_sublist _).mem (by rw [hd]; exact List.mem_cons_self ..)
        obtain ⟨p, hp, he⟩ := (S.state _ h hh).1 y hy
        have he2 : y.1 = r := by
          have h0 : (h.opens.dropWhile (fun x => x.1 ≠ r)) ≠ [] := by rw [hd]; simp
          have := List.head_dropWhile_not (fun x : Nat × Nat => x.1 ≠ r) h0
          simp only [hd, List.head_cons] at this
          simpa using this
        exact absurd (he.trans he2) (n2 p hp)

theorem houseUp_sim {T : Tables} {o : Options} (hT : KnownClasses T) (hB : BracketTable T) : ∀ (t : List Char) (cur : Scrap) (a : Option Nat)
    (st : List DirContext) (H : House) (n : Nat) (ks : List Nat) (done : List (Nat × Bracket)), Kept (H.pass cur) n ks done cur.r →
    cur.clz ≠ cFSI → cFSI ∉ classes T o t → PdiMatched (ks.length - 1) (marksOf T o cur.r t) → (cur.r = 0 → Mark.initiator 0 ∉ marksOf T o cur.r t) →
    ∃ ks' pos', Kept (houseUp T o (t.map fun c => (c.toNat, (utf8 [c]).length)) cur a st H) (n + initiators (marksOf T o cur.r t)) ks'
      (done ++ numbered n ks (marksOf T o cur.r t)) pos' := by
  intro t
  induction t with
  | nil =>
    intro cur a st H n ks done hS _ _ _ _
    refine ⟨ks, cur.r, ?_⟩
    rw [List.map_nil, houseUp, marksOf, numbered, List.append_nil]
    exact hS
  | cons c t ih =>
    intro cur a st H n ks done hS hf hF hM h0
    rw [List.map_cons, houseUp]
    dsimp only
    rw [runeClass_char]
    obtain ⟨i1, i2, i3⟩ := inherit_parts (nextScrap cur (charClass T o c) (utf8 [c]).length)
      (switchContext cur st (nextScrap cur (charClass T o c) (utf8 [c]).length)).1 a
    have i1' : (inheritStrongTypes (nextScrap cur (charClass T o c) (utf8 [c]).length)
      (switchContext cur st (nextScrap cur (charClass T o c) (utf8 [c]).length)).1 a).l = cur.r := i1
    have i2' : (inheritStrongTypes (nextScrap cur (charClass T o c) (utf8 [c]).length)
      (switchContext cur st (nextScrap cur (charClass T o c) (utf8 [c]).length)).1 a).r = cur.r + (utf8 [c]).length := i2
    have i3' : (inheritStrongTypes (nextScrap cur (charClass T o c) (utf8 [c]).length)
      (switchContext cur st (nextScrap cur (charClass T o c) (utf8 [c]).length)).1 a).clz = rulesW1to3 (charClass T o c) cur := i3
    generalize inheritStrongTypes (nextScrap cur (charClass T o c) (utf8 [c]).length)
      (switchContext cur st (nextScrap cur (charClass T o c) (utf8 [c]).length)).1 a = new at i1' i2' i3' ⊢
    generalize (switchContext cur st (nextScrap cur (charClass T o c) (utf8 [c]).length)).2 = st'
    clear i1 i2 i3
    generalize (if charClass T o c = cAL then some (nextScrap cur (charClass T o c) (utf8 [c]).length).l else a) = a'
    have hw := utf8_pos c
    have hF' : cFSI ∉ classes T o t := fun h => hF (List.mem_cons_of_mem _ h)
    have hcF : charClass T o c ≠ cFSI := fun h => hF (by rw [← h]; exact List.mem_cons_self ..)
    have hlt : cur.r < new.r := by omega
    have hks : ∃ k ks0, ks = k :: ks0 := by
      have := hS.top
      cases ks with
      | nil => cases this
      | cons k ks0 => exact ⟨k, ks0, rfl⟩
    -- what is to be shown for the rest of the text
    have next : ∀ (n' : Nat) (ks' : List Nat) (done' : List (Nat × Bracket)) (H' : House), Kept (H'.pass new) n' ks' done' new.r → new.clz ≠ cFSI →
        PdiMatched (ks'.length - 1) (marksOf T o new.r t) →
        ∃ ks'' pos', Kept (houseUp T o (t.map fun c => (c.toNat, (utf8 [c]).length)) new a' st' H') (n' + initiators (marksOf T o new.r t)) ks''
          (done' ++ numbered n' ks' (marksOf T o new.r t)) pos' := by
      intro n' ks' done' H' h1 h2 h3
      exact ih new a' st' H' n' ks' done' h1 h2 hF' h3 (fun e => by omega)
    rw [marksOf, ← i2'] at hM h0 ⊢
    have hbr : ∀ x : Class, charClass T o c = x → rulesW1to3 x cur = x → (x = cBRACKO ∨ x = cBRACKC ∨ x = cLRI ∨ x = cRLI ∨ x = cPDI) →
        breaks cur (charClass T o c) = true ∧ new.clz = x := by
      intro x hx hr hxs
      have e3 : new.clz = x := by rw [i3', hx, hr]
      refine ⟨?_, e3⟩
      unfold breaks isBracket isIsolate
      rw [hx, hr]
      by_cases h : cur.clz = x
      · rcases hxs with rfl | rfl | rfl | rfl | rfl <;> simp [h]
      · simp [h]
    by_cases hi : charClass T o c = cLRI ∨ charClass T o c = cRLI
    · -- an initiator
      obtain ⟨hb, e3⟩ : breaks cur (charClass T o c) = true ∧ (new.clz = cLRI ∨ new.clz = cRLI) := by
        rcases hi with hi | hi
        · obtain ⟨g1, g2⟩ := hbr cLRI hi rfl (by simp)
          exact ⟨g1, Or.inl g2⟩
        · obtain ⟨g1, g2⟩ := hbr cRLI hi rfl (by simp)
          exact ⟨g1, Or.inr g2⟩
      have hin : charClass T o c ∈ [cLRI, cRLI, cFSI] := by rcases hi with hi | hi <;> rw [hi] <;> decide
      rw [if_pos hin] at hM h0
      rw [if_pos hb, if_pos hin]
      have hpos : 0 < cur.r := by
        rcases Nat.eq_zero_or_pos cur.r with e | e
        · exact absurd (by rw [e]; simp) (h0 e)
        · exact e
      have hnb : isBracket new = false := by unfold isBracket; rcases e3 with e | e <;> rw [e] <;> decide
      have hps : ((H.pass cur).tell c.toNat new).pass new = (H.pass cur).enter cur.r := by
        rw [tell_quiet hnb]
        have q1 : isIsolate new = true := by unfold isIsolate; rcases e3 with e | e <;> rw [e] <;> decide
        have q2 : new.clz ≠ cPDI := by rcases e3 with e | e <;> rw [e] <;> decide
        show (if isIsolate new = true then _ else _) = _
        rw [if_pos q1, if_neg q2, i1']
      rw [List.singleton_append] at hM ⊢
      rw [PdiMatched] at hM
      rw [initiators, numbered]
      have hS' := hS.entered hpos hlt
      rw [← hps] at hS'
      have := next (n + 1) (n :: ks) done _ hS' (by rcases e3 with e | e <;> rw [e] <;> decide) (by
        obtain ⟨k, ks0, rfl⟩ := hks
        simpa using hM)
      have e : n + 1 + initiators (marksOf T o new.r t) = n + (initiators (marksOf T o new.r t) + 1) := by omega
      rw [← e]
      exact this
    · have hin : charClass T o c ∉ [cLRI, cRLI, cFSI] := by
        intro h
        simp only [List.mem_cons, List.not_mem_nil, or_false] at h
        rcases h with h | h | h
        · exact hi (Or.inl h)
        · exact hi (Or.inr h)
        · exact hcF h
      rw [if_neg hin] at hM h0
      rw [if_neg hin]
      by_cases hp : charClass T o c = cPDI
      · -- a PDI
        obtain ⟨hb, e3⟩ := hbr cPDI hp rfl (by simp)
        rw [if_pos hp] at hM
        rw [if_pos hb, if_pos hp]
        rw [List.singleton_append] at hM ⊢
        rw [PdiMatched] at hM
        obtain ⟨k, ks0, rfl⟩ := hks
        cases ks0 with
        | nil => exact absurd hM.1 (by simp)
        | cons k' ks0 =>
          rw [initiators, numbered]
          · have hps : ((H.pass cur).tell c.toNat new).pass new = (H.pass cur).leave cur.r := by
              rw [tell_quiet (by unfold isBracket; rw [e3]; decide)]
              show (if isIsolate new = true then _ else _) = _
              rw [if_pos (by unfold isIsolate; rw [e3]; decide), if_pos e3, i1']
            have hS' := hS.left hlt
            rw [← hps] at hS'
            exact next n (k' :: ks0) done _ hS' (by rw [e3]; decide) (by simpa using hM.2)
          · simp
      · rw [if_neg hp] at hM
        rw [if_neg hp, bracketsOf]
        rw [bracketsOf] at hM
        by_cases ho : charClass T o c = cBRACKO
        · obtain ⟨hb, e3⟩ := hbr cBRACKO ho rfl (by simp)
          obtain ⟨p, hp⟩ := (charClass_bracket hB hT).1 ho
          rw [if_pos ho, hp] at hM
          rw [if_pos hb, if_pos ho, hp]
          simp only [bracketsOf, List.map_cons, List.map_nil] at hM ⊢
          rw [List.singleton_append] at hM ⊢
          rw [PdiMatched] at hM
          obtain ⟨k, ks0, rfl⟩ := hks
          rw [initiators, numbered]
          · have hbd : (H.pass cur).bd16 = k := by have := hS.top; injection this with this; exact this.symm
            have hS' := hS.told hlt (·.pushOpening c.toNat new) (fun h => ⟨rfl, rfl, rfl⟩) (.opening p.2 cur.r) rfl
              (fun h bs hd => by rw [← i1']; exact hd.push e3 hp)
            have hps : ((H.pass cur).tell c.toNat new).pass new =
                { H.pass cur with handlers := setHandler (H.pass cur).handlers (H.pass cur).bd16 (·.pushOpening c.toNat new) } := by
              rw [pass_quiet (by unfold isIsolate; rw [e3]; decide)]
              unfold House.tell
              rw [if_neg (by unfold isBracket; rw [e3]; decide), if_pos e3]
            rw [← hps, hbd] at hS'
            have := next n (k :: ks0) _ _ hS' (by rw [e3]; decide) hM
            rw [List.append_assoc] at this
            exact this
          · simp
        · rw [if_neg ho] at hM
          rw [if_neg ho]
          by_cases hc : charClass T o c = cBRACKC
          · obtain ⟨hb, e3⟩ := hbr cBRACKC hc rfl (by simp)
            rw [if_pos hc] at hM
            rw [if_pos hb, if_pos hc]
            simp only [bracketsOf, List.map_cons, List.map_nil] at hM ⊢
            rw [List.singleton_append] at hM ⊢
            rw [PdiMatched] at hM
            obtain ⟨k, ks0, rfl⟩ := hks
            rw [initiators, numbered]
            · have hbd : (H.pass cur).bd16 = k := by have := hS.top; injection this with this; exact this.symm
              have hS' := hS.told hlt (·.findPair c.toNat new) (fun h => by
                  unfold Handler.findPair
                  split <;> exact ⟨rfl, rfl, rfl⟩) (.closing c.toNat cur.r) rfl
                (fun h bs hd => by rw [← i1']; exact hd.pop c.toNat new)
              have hps : ((H.pass cur).tell c.toNat new).pass new =
                  { H.pass cur with handlers := setHandler (H.pass cur).handlers (H.pass cur).bd16 (·.findPair c.toNat new) } := by
                rw [pass_quiet (by unfold isIsolate; rw [e3]; decide)]
                unfold House.tell
                rw [if_neg (by unfold isBracket; rw [e3]; decide), if_neg (by rw [e3]; decide)]
              rw [← hps, hbd] at hS'
              have := next n (k :: ks0) _ _ hS' (by rw [e3]; decide) hM
              rw [List.append_assoc] at this
              exact this
            · simp
          · -- another character
            rw [if_neg hc] at hM
            rw [if_neg hc]
            change PdiMatched _ ([] ++ _) at hM
            change ∃ ks' pos', Kept _ (n + initiators ([] ++ _)) ks' (done ++ numbered n ks ([] ++ _)) pos'
            rw [List.nil_append] at hM ⊢
            have hni : isIsolate new = false ∧ new.clz ≠ cFSI := by
              have : new.clz ≠ cLRI ∧ new.clz ≠ cRLI ∧ new.clz ≠ cFSI ∧ new.clz ≠ cPDI := by
                rw [i3']
                unfold rulesW1to3
                have q1 : charClass T o c ≠ cLRI := fun h => hi (Or.inl h)
                have q2 : charClass T o c ≠ cRLI := fun h => hi (Or.inr h)
                repeat' split
                all_goals first
                  | decide
                  | exact ⟨q1, q2, hcF, hp⟩
                  | exact ⟨by assumption, by assumption, hf, by assumption⟩
              unfold isIsolate
              simp [this]
            split
            · rename_i hb
              have htl : (H.pass cur).tell c.toNat new = H.pass cur := by
                cases hbk : isBracket new with
                | false => exact tell_quiet hbk
                | true =>
                  have hnsm : charClass T o c = cNSM := by
                    rcases rules_cases (charClass T o c) cur with e | ⟨e, -⟩ | ⟨-, -, e⟩ | ⟨-, e⟩ | e
                    · rw [e] at i3'
                      unfold isBracket at hbk
                      rw [i3'] at hbk
                      simp [ho, hc] at hbk
                    · exact e
                    all_goals
                      rw [e] at i3'
                      unfold isBracket at hbk
                      rw [i3'] at hbk
                      exact absurd hbk (by decide)
                  obtain ⟨n1, n2⟩ := (charClass_bracket hB hT (o := o) (c := c)).2 hnsm
                  exact tell_mark hS new n1 n2
              have := hS.later (Nat.le_of_lt hlt)
              refine next n ks done _ ?_ hni.2 hM
              rw [htl, pass_quiet hni.1]
              exact this
            · rename_i hb
              have hci : isIsolate cur = false := by
                unfold breaks at hb
                cases h : isIsolate cur with
                | false => rfl
                | true => rw [h] at hb; simp at hb
              have hH : H.pass cur = H := pass_quiet hci
              rw [hH] at hS
              have hnew := hS.later (Nat.le_of_lt hlt)
              have er : (collapse cur (nextScrap cur (charClass T o c) (utf8 [c]).length) cur.clz).r = new.r := by rw [i2']; rfl
              have := ih (collapse cur (nextScrap cur (charClass T o c) (utf8 [c]).length) cur.clz) a st H n ks done
                (by rw [pass_quiet (by exact hci), er]; exact hnew) hf hF' (by rw [er]; exact hM) (fun e => by omega)
              rw [er] at this
              exact this

/-- A handler could be meant. -/
def Handler.Covers (h : Handler) (pos : Nat) : Prop := h.firstpos ≤ pos ∧ (h.lastpos = 0 ∨ h.lastpos ≥ pos)

section
variable {hs : List Handler} {n : Nat} (hl : hs.length = n)
  (hc : ∀ i h, hs[i]? = some h → h.next = if i + 1 < n then some (i + 1) else none) (pos : Nat)
include hl hc

theorem loop_step (fuel i acc : Nat) (hi : i < n) : ∃ h, hs[i]? = some h ∧ bd16Loop hs pos (fuel + 1) i acc =
    if i + 1 < n then bd16Loop hs pos fuel (i + 1) (if h.firstpos ≤ pos ∧ (h.lastpos = 0 ∨ h.lastpos ≥ pos) then i else acc) else acc := by
  obtain ⟨h, hh⟩ : ∃ h, hs[i]? = some h := ⟨_, List.getElem?_eq_getElem (by omega)⟩
  refine ⟨h, hh, ?_⟩
  rw [bd16Loop, hh]
  dsimp only
  rw [hc i h hh]
  by_cases hn : i + 1 < n
  · rw [if_pos hn, if_pos hn]
  · rw [if_neg hn, if_neg hn]

theorem loop_none : ∀ (fuel i acc : Nat), i < n → (∀ j h, i ≤ j → j + 1 < n → hs[j]? = some h → ¬ h.Covers pos) → bd16Loop hs pos fuel i acc = acc := by
  intro fuel
  induction fuel with
  | zero => intros; rfl
  | succ fuel ih =>
    intro i acc hi hno
    obtain ⟨h, hh, e⟩ := loop_step hl hc pos fuel i acc hi
    rw [e]
    split
    · rename_i hn
      rw [if_neg (show ¬ (h.firstpos ≤ pos ∧ (h.lastpos = 0 ∨ h.lastpos ≥ pos)) from hno i h (Nat.le_refl _) hn hh)]
      exact ih (i + 1) acc hn (fun j h hj => hno j h (by omega))
    · rfl

theorem loop_find {k : Nat} {hk : Handler} (hkn : k + 1 < n) (hh : hs[k]? = some hk) (hcov : hk.Covers pos)
    (hno : ∀ j h, k < j → j + 1 < n → hs[j]? = some h → ¬ h.Covers pos) :
    ∀ (fuel i acc : Nat), i ≤ k → k < i + fuel → bd16Loop hs pos fuel i acc = k := by
  intro fuel
  induction fuel with
  | zero => intros; omega
  | succ fuel ih =>
    intro i acc hi hf
    obtain ⟨h, hh', e⟩ := loop_step hl hc pos fuel i acc (by omega)
    rw [e, if_pos (by omega)]
    by_cases hik : i = k
    · subst hik
      obtain rfl : hk = h := by rw [hh'] at hh; exact (Option.some.inj hh).symm
      rw [if_pos (show hk.firstpos ≤ pos ∧ (hk.lastpos = 0 ∨ hk.lastpos ≥ pos) from hcov)]
      exact loop_none hl hc pos fuel (i + 1) i (by omega) (fun j h hj => hno j h (by omega))
    · exact ih (i + 1) _ (by omega) (by omega)

theorem loop_range : ∀ (fuel i acc : Nat), i < n → bd16Loop hs pos fuel i acc = acc ∨ bd16Loop hs pos fuel i acc + 1 < n := by
  intro fuel
  induction fuel with
  | zero => intros; exact Or.inl rfl
  | succ fuel ih =>
    intro i acc hi
    obtain ⟨h, hh, e⟩ := loop_step hl hc pos fuel i acc hi
    rw [e]
    split
    · rename_i hn
      rcases ih (i + 1) (if h.firstpos ≤ pos ∧ (h.lastpos = 0 ∨ h.lastpos ≥ pos) then i else acc) hn with e2 | e2
      · rw [e2]
        split
        · right; omega
        · left; rfl
      · exact Or.inr e2
    · exact Or.inl rfl

end

/-- The positions of pairs are those of brackets. -/
theorem bd16_mem (std : Bool) : ∀ (l : List Bracket) (stack : List (Nat × Nat)) (x : Nat × Nat), x ∈ bd16 std stack l →
    (x.1 ∈ stack.map (·.2) ∨ x.1 ∈ l.map posOf) ∧ x.2 ∈ l.map posOf := by
  intro l
  induction l with
  | nil => intro stack x hx; simp [bd16] at hx
  | cons b l ih =>
    intro stack x hx
    have weaken : ∀ (stack' : List (Nat × Nat)), (∀ y ∈ stack'.map (·.2), y ∈ stack.map (·.2) ∨ y ∈ (b :: l).map posOf) → x ∈ bd16 std stack' l →
        (x.1 ∈ stack.map (·.2) ∨ x.1 ∈ (b :: l).map posOf) ∧ x.2 ∈ (b :: l).map posOf := by
      intro stack' hs hx
      obtain ⟨h1, h2⟩ := ih stack' x hx
      refine ⟨?_, List.mem_cons_of_mem _ h2⟩
      rcases h1 with h1 | h1
      · exact hs _ h1
      · exact Or.inr (List.mem_cons_of_mem _ h1)
    cases b with
    | opening c pos =>
      rw [bd16] at hx
      split at hx
      · refine weaken _ ?_ hx
        intro y hy
        rw [List.map_cons, List.mem_cons] at hy
        rcases hy with rfl | hy
        · exact Or.inr (List.mem_cons_self ..)
        · exact Or.inl hy
      · split at hx
        · cases hx
        · exact weaken _ (fun y hy => Or.inl hy) hx
    | closing r pos =>
      rw [bd16] at hx
      cases hd : stack.dropWhile (fun x => if std then canonical x.1 ≠ canonical r else x.1 ≠ r) with
      | nil =>
        rw [hd] at hx
        exact weaken _ (fun y hy => Or.inl hy) hx
      | cons y below =>
        obtain ⟨c, p⟩ := y
        rw [hd] at hx
        dsimp only at hx
        have hsub : ((c, p) :: below).Sublist stack := by rw [← hd]; exact List.dropWhile_sublist _
        rw [List.mem_cons] at hx
        rcases hx with rfl | hx
        · exact ⟨Or.inl (List.mem_map.mpr ⟨_, hsub.mem (List.mem_cons_self ..), rfl⟩), List.mem_cons_self ..⟩
        · exact weaken _ (fun y hy => Or.inl ((hsub.map _).mem (List.mem_cons_of_mem _ hy))) hx

theorem increasing_sequence {T : Tables} {o : Options} (k : Nat) : ∀ (t : List Char) (pos n : Nat) (ks : List Nat),
    Increasing pos (sequence k (numbered n ks (marksOf T o pos t))) := by
  intro t
  induction t with
  | nil => intro pos n ks; rw [marksOf, numbered]; exact .nil
  | cons c t ih =>
    intro pos n ks
    have hw := utf8_pos c
    have ih' : ∀ n ks, Increasing (pos + 1) (sequence k (numbered n ks (marksOf T o (pos + (utf8 [c]).length) t))) :=
      fun n ks => (ih (pos + (utf8 [c]).length) n ks).le (by omega)
    have skip : ∀ n ks, Increasing pos (sequence k (numbered n ks (marksOf T o (pos + (utf8 [c]).length) t))) :=
      fun n ks => (ih' n ks).le (by omega)
    have brk : ∀ b, posOf b = pos → ∀ ks, Increasing pos (sequence k (numbered n ks (.bracket b :: marksOf T o (pos + (utf8 [c]).length) t))) := by
      intro b hb ks
      cases ks with
      | nil => rw [numbered]; exact skip _ _; all_goals simp
      | cons j ks =>
        rw [numbered]
        have e : sequence k ((j, b) :: numbered n (j :: ks) (marksOf T o (pos + (utf8 [c]).length) t)) =
            if j = k then b :: sequence k (numbered n (j :: ks) (marksOf T o (pos + (utf8 [c]).length) t))
            else sequence k (numbered n (j :: ks) (marksOf T o (pos + (utf8 [c]).length) t)) := by
          unfold sequence
          by_cases hj : j = k <;> simp [hj]
        rw [e]
        split
        · have := ih' n (j :: ks)
          rw [← hb] at this ⊢
          cases b with
          | opening c p => exact .opening (Nat.le_refl _) this
          | closing c p => exact .closing (Nat.le_refl _) this
        · exact skip _ _
    rw [marksOf]
    split
    · rw [List.singleton_append, numbered]
      exact skip _ _
    · split
      · rw [List.singleton_append]
        rcases ks with _ | ⟨j, _ | ⟨j', ks⟩⟩
        · rw [numbered]; exact skip _ _; all_goals simp
        · rw [numbered]; exact skip _ _; all_goals simp
        · rw [numbered]
          · exact skip _ _
      · rw [bracketsOf]
        split
        · split
          · exact brk _ rfl ks
          · exact skip _ _
        · split
          · exact brk _ rfl ks
          · exact skip _ _

theorem mem_sequence {k : Nat} {l : List (Nat × Bracket)} {b : Bracket} : b ∈ sequence k l ↔ (k, b) ∈ l := by
  unfold sequence
  simp only [List.mem_map, List.mem_filter, beq_iff_eq]
  constructor
  · rintro ⟨⟨x, y⟩, ⟨h1, h2⟩, h3⟩
    dsimp only at h2 h3
    rw [← h2, ← h3]; exact h1
  · intro h; exact ⟨_, ⟨h, rfl⟩, rfl⟩

theorem mem_numbered {b : Bracket} {k : Nat} : ∀ (l : List Mark) (n : Nat) (ks : List Nat), (k, b) ∈ numbered n ks l → Mark.bracket b ∈ l := by
  intro l
  induction l with
  | nil => intro n ks h; rw [numbered] at h; cases h
  | cons m l ih =>
    intro n ks h
    have h' : Mark.bracket b = m ∨ ∃ n ks, (k, b) ∈ numbered n ks l := by
      revert h
      cases m with
      | bracket b' =>
        cases ks with
        | nil => rw [numbered]; intro h; exact Or.inr ⟨_, _, h⟩; all_goals simp
        | cons j ks =>
          rw [numbered]
          intro h
          rcases List.mem_cons.mp h with h | h
          · left; rw [(Prod.mk.inj h).2]
          · exact Or.inr ⟨_, _, h⟩
      | initiator p => rw [numbered]; intro h; exact Or.inr ⟨_, _, h⟩
      | pdi p =>
        rcases ks with _ | ⟨j, _ | ⟨j', ks⟩⟩
        · rw [numbered]; intro h; exact Or.inr ⟨_, _, h⟩; all_goals simp
        · rw [numbered]; intro h; exact Or.inr ⟨_, _, h⟩; all_goals simp
        · rw [numbered]
          · intro h; exact Or.inr ⟨_, _, h⟩
    rcases h' with h' | ⟨n', ks', h'⟩
    · rw [h']; exact List.mem_cons_self ..
    · exact List.mem_cons_of_mem _ (ih n' ks' h')

theorem marks_noAngle {T : Tables} {o : Options} : ∀ (t : List Char) (n : Nat), NoAngle t → ∀ b, Mark.bracket b ∈ marksOf T o n t → match b with
      | .opening c _ => c ≠ 0x2329 ∧ c ≠ 0x232A
      | .closing r _ => r ≠ 0x2329 ∧ r ≠ 0x232A := by
  intro t
  induction t with
  | nil => intro n _ b hb; rw [marksOf] at hb; cases hb
  | cons c t ih =>
    intro n ha b hb
    rw [marksOf] at hb
    rw [List.mem_append] at hb
    rcases hb with hb | hb
    · split at hb
      · simp at hb
      · split at hb
        · simp at hb
        · obtain ⟨b', hb', e⟩ := List.mem_map.mp hb
          injection e with e
          subst e
          exact brackets_noAngle [c] n (fun x hx => ha x (by rw [List.mem_singleton] at hx; rw [hx]; exact List.mem_cons_self ..)) _ hb'
    · exact ih _ (fun x hx => ha x (List.mem_cons_of_mem _ hx)) b hb

/-- Which handler is looked at for a bracket of a sequence. -/
theorem Kept.looked {sc : Scanner} {n : Nat} {ks : List Nat} {done : List (Nat × Bracket)} {pos : Nat} (S : Kept sc.house n ks done pos) :
    (∀ p, sc.bd16For p = 0 ∨ sc.bd16For p + 1 < n) ∧ ∀ k b, (k, b) ∈ done → k = 0 ∨ k + 1 < n → sc.bd16For (posOf b) = k := by
  obtain ⟨hn, ha⟩ := S.at0
  have ha' : sc.irsAt 0 = 0 := ha
  have hl : sc.handlers.length = n := S.len
  unfold Scanner.bd16For
  rw [ha']
  refine ⟨fun p => loop_range hl S.chain p _ 0 0 hn, ?_⟩
  intro k b hb hk
  obtain ⟨o1, o2, o3, o4⟩ := S.own _ hb
  dsimp only at o1 o2 o3 o4
  have hno : ∀ j h, k < j → j + 1 < n → sc.handlers[j]? = some h → ¬ h.Covers (posOf b) := by
    intro j h hj _ hh hcv
    have := o4 j h hj hh
    unfold Handler.Covers at hcv
    omega
  by_cases hkn : k + 1 < n
  · obtain ⟨h, hh⟩ : ∃ h, sc.handlers[k]? = some h := ⟨_, List.getElem?_eq_getElem (by omega)⟩
    exact loop_find hl S.chain _ hkn hh (o3 h hh) hno _ 0 0 (by omega) (by omega)
  · have hk0 : k = 0 := by omega
    subst hk0
    exact loop_none hl S.chain _ _ 0 0 hn (fun j h _ hj => by omega)

/-- The bracket pairs the parser finds, in a text with isolates. -/
theorem lookup_sequences {T : Tables} {o : Options} (hT : KnownClasses T) (hB : BracketTable T) (ho : o.markup = none) (sched : Nat → Nat) (t : List Char)
    (h1 : cFSI ∉ classes T o (firstParagraph T o t)) (h2 : PdiMatched 0 (marksOf T o 0 (firstParagraph T o t)))
    (h3 : Mark.initiator 0 ∉ marksOf T o 0 (firstParagraph T o t)) :
    ∃ ss fin, Feeds (scannerEnv T o sched) (newScanner o (utf8 t), 0) ss (fin, 0) ∧ ∀ i p q,
      ((∃ pr, ((scannerEnv T o sched).pairing (fin, i) { clz := cBRACKO, l := p }).1 = some pr ∧ pr.closing.l = q) ↔
        ∃ k, (k = 0 ∨ k < initiators (marksOf T o 0 (firstParagraph T o t))) ∧ (p, q) ∈ bd16 false [] (sequenceOf T o (firstParagraph T o t) k)) ∧
      ((∃ pr, ((scannerEnv T o sched).pairing (fin, i) { clz := cBRACKC, l := q }).1 = some pr ∧ pr.opening.l = p) ↔
        ∃ k, (k = 0 ∨ k < initiators (marksOf T o 0 (firstParagraph T o t))) ∧ (p, q) ∈ bd16 false [] (sequenceOf T o (firstParagraph T o t) k)) := by
  have hN : ∀ r, T.cls r ≠ cNULL := by
    intro r h
    have := hT r
    rw [h] at this
    exact absurd this (by decide)
  obtain ⟨fin, f1, f2, -⟩ := scanner_feeds ho hN sched (utf8 t)
  have hh := house_ended ho f1 f2
  rw [paragraph_text] at hh
  have e0 : (initialOuterScrap o false).r = 0 := by unfold initialOuterScrap; split <;> rfl
  have ec : (initialOuterScrap o false).clz = cNULL := by unfold initialOuterScrap; split <;> rfl
  have S0 : Kept ⟨[{}], [(0, 0)], [0], 0⟩ 1 [0] [] 0 := by
    have one : ∀ (i : Nat) (h : Handler), [({} : Handler)][i]? = some h → i = 0 ∧ h = {} := by
      intro i h hh
      cases i with
      | zero => exact ⟨rfl, (Option.some.inj hh).symm⟩
      | succ i => cases hh
    refine ⟨rfl, ?_, ?_, ?_, ?_, ?_, rfl, rfl, ?_, by simp, by simp, ?_, ?_, by simp⟩
    · intro i h hh; obtain ⟨rfl, rfl⟩ := one i h hh; rfl
    · intro i h hh
      obtain ⟨rfl, rfl⟩ := one i h hh
      exact ⟨(by intro x hx; simp [Handler.opens] at hx), [], List.Perm.refl _, fun rest => rfl⟩
    · intro h hh; obtain ⟨-, rfl⟩ := one 0 h hh; rfl
    · intro i h hi hh; obtain ⟨rfl, rfl⟩ := one i h hh; omega
    · intro i h hh; obtain ⟨rfl, rfl⟩ := one i h hh; rfl
    · intro x hx; right; simpa using hx
    · intro k _ h hh; obtain ⟨-, rfl⟩ := one k h hh; rfl
    · intro i h hh hi; obtain ⟨rfl, -⟩ := one i h hh; simp at hi
  obtain ⟨ks, pos, S⟩ := houseUp_sim hT hB (o := o) (firstParagraph T o t) (initialOuterScrap o false) none [] ⟨[{}], [(0, 0)], [0], 0⟩ 1 [0] []
    (by rw [pass_quiet (by unfold isIsolate; rw [ec]; decide), e0]; exact S0) (by rw [ec]; decide) h1 (by rw [e0]; exact h2) (by rw [e0]; exact fun _ => h3)
  rw [← hh, e0, List.nil_append] at S
  obtain ⟨l1, l2⟩ := S.looked
  have hst : ∀ n, fin.steps T o n = fin := by
    intro n
    cases n with
    | zero => rfl
    | succ n => rw [Scanner.steps, ended_atRest f2]
  have hpair : ∀ i s, ∃ h, fin.handlers[fin.bd16For s.l]? = some h ∧ ((scannerEnv T o sched).pairing (fin, i) s).1 = h.find s ∧
      h.found.Perm (bd16 false [] (sequenceOf T o (firstParagraph T o t) (fin.bd16For s.l))) := by
    intro i s
    have hlt : fin.bd16For s.l < fin.handlers.length := by
      have : fin.handlers.length = _ := S.len
      have := l1 s.l
      omega
    refine ⟨_, List.getElem?_eq_getElem hlt, ?_, ?_⟩
    · show ((fin.steps T o (sched i)).handlers[(fin.steps T o (sched i)).bd16For s.l]?).bind (·.find s) = _
      rw [hst, List.getElem?_eq_getElem hlt]
      rfl
    · obtain ⟨-, f, g1, g2⟩ := S.state _ _ (List.getElem?_eq_getElem hlt)
      have := g2 []
      rw [List.append_nil, bd16, List.append_nil] at this
      unfold sequenceOf
      rw [this]
      exact g1
  have hnd : ∀ k, ((bd16 false [] (sequenceOf T o (firstParagraph T o t) k)).map (·.1)).Nodup ∧
      ((bd16 false [] (sequenceOf T o (firstParagraph T o t) k)).map (·.2)).Nodup := by
    intro k
    obtain ⟨d1, d2, -⟩ := bd16_nodup false (sequenceOf T o (firstParagraph T o t) k) [] 0 (increasing_sequence k _ 0 1 [0]) (by simp) (by simp)
    exact ⟨d1, d2⟩
  have hk : ∀ k, k = 0 ∨ k < initiators (marksOf T o 0 (firstParagraph T o t)) → ∀ b ∈ sequenceOf T o (firstParagraph T o t) k, fin.bd16For (posOf b) = k := by
    intro k hk b hb
    exact l2 k b (mem_sequence.mp hb) (by omega)
  refine ⟨_, fin, f1, fun i p q => ⟨?_, ?_⟩⟩
  · obtain ⟨h, g1, g2, g3⟩ := hpair i { clz := cBRACKO, l := p }
    dsimp only at g1 g3
    rw [g2, find_opening ((g3.map _).nodup_iff.mpr (hnd _).1), g3.mem_iff]
    constructor
    · intro hm
      have := l1 p
      exact ⟨_, by omega, hm⟩
    · rintro ⟨k, hk1, hm⟩
      obtain ⟨hx, -⟩ := bd16_mem false _ _ _ hm
      rcases hx with hx | hx
      · cases hx
      · obtain ⟨b, hb, e⟩ := List.mem_map.mp hx
        have := hk k hk1 b hb
        rw [e] at this
        rw [this]
        exact hm
  · obtain ⟨h, g1, g2, g3⟩ := hpair i { clz := cBRACKC, l := q }
    dsimp only at g1 g3
    rw [g2, find_closing ((g3.map _).nodup_iff.mpr (hnd _).2), g3.mem_iff]
    constructor
    · intro hm
      have := l1 q
      exact ⟨_, by omega, hm⟩
    · rintro ⟨k, hk1, hm⟩
      obtain ⟨-, hx⟩ := bd16_mem false _ _ _ hm
      obtain ⟨b, hb, e⟩ := List.mem_map.mp hx
      have := hk k hk1 b hb
      rw [e] at this
      rw [this]
      exact hm

/-- How the parser looks for a pair, from the house. -/
def House.lookup (H : House) (s : Scrap) : Option Pairing :=
  (H.handlers[bd16Loop H.handlers s.l H.handlers.length (H.at 0) (H.at 0)]?).bind (·.find s)

theorem house_lookup {T : Tables} {o : Options} (hT : KnownClasses T) (ho : o.markup = none) (sched : Nat → Nat) (t : List Char) :
    ∃ fin, Feeds (scannerEnv T o sched) (newScanner o (utf8 t), 0) (emit T o (paragraph T o (runesOf (utf8 t))) (initialOuterScrap o false) none []) (fin, 0) ∧
      ∀ i s, ((scannerEnv T o sched).pairing (fin, i) s).1 =
        (houseUp T o ((firstParagraph T o t).map fun c => (c.toNat, (utf8 [c]).length)) (initialOuterScrap o false) none [] ⟨[{}], [(0, 0)], [0], 0⟩).lookup s := by
  have hN : ∀ r, T.cls r ≠ cNULL := by
    intro r h
    have := hT r
    rw [h] at this
    exact absurd this (by decide)
  obtain ⟨fin, f1, f2, -⟩ := scanner_feeds ho hN sched (utf8 t)
  have hh := house_ended ho f1 f2
  rw [paragraph_text] at hh
  refine ⟨fin, f1, fun i s => ?_⟩
  rw [← hh]
  have hst : ∀ n, fin.steps T o n = fin := by
    intro n
    cases n with
    | zero => rfl
    | succ n => rw [Scanner.steps, ended_atRest f2]
  show ((fin.steps T o (sched i)).handlers[(fin.steps T o (sched i)).bd16For s.l]?).bind (·.find s) = _
  rw [hst]
  rfl

end Uax.Bidi
