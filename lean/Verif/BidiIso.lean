import Verif.BidiTile

/-
The parser and isolates: an isolate which contains text, but no brackets, is parsed like
a text of its own, and becomes one scrap for the text around it.
-/
namespace Uax.Bidi

/-- What reading does. `k` scraps were to come, read or not, at the parser's position. -/
structure Reads {σ : Type} (E : Env σ) (env' : σ) (p : Parser σ) (rest : List Scrap) (q : Parser σ) (rest1 : List Scrap) : Prop where
  sp : q.sp = p.sp
  depth : q.depth = p.depth
  fed : Fed E q rest1 env'
  all : q.stack ++ rest1 = p.stack ++ rest
  unread : min rest.length ((p.stack ++ rest).length - p.sp - 3) ≤ rest1.length
  more : p.stack.length ≤ q.stack.length
  ended : q.eof = true → p.eof = true ∨ (p.stack ++ rest).length < p.sp + 3

theorem readLoop_eof {σ : Type} (E : Env σ) (env' : σ) : ∀ (n k : Nat) (p : Parser σ) (rest : List Scrap), p.eof = false →
    Feeds E p.env rest env' → n ≤ rest.length → ∀ k' p', readLoop E n k p = .returns (k', p') → p'.eof = false := by
  intro n
  induction n with
  | zero => intro k p rest he _ _ k' p' h; injection h with h; injection h with h1 h2; rw [← h2]; exact he
  | succ n ih =>
    intro k p rest he hf hn k' p' h
    cases hf with
    | stop _ _ => simp at hn
    | more h1 hx hs =>
      rename_i s1 x xs
      rw [readLoop, h1] at h
      dsimp only at h
      rw [if_neg hx] at h
      exact ih _ _ xs (by exact he) hs (by simpa using hn) _ _ h

theorem read_reads {σ : Type} {E : Env σ} {env' : σ} {p : Parser σ} {rest : List Scrap} (hf : Fed E p rest env')
    {res : Nat × Bool} {q : Parser σ} (h : p.read E (3 - ((p.stack.length : Int) - p.sp)) = .returns (res, q)) (hle : p.sp ≤ p.stack.length) :
    ∃ rest1, Reads E env' p rest q rest1 := by
  obtain ⟨res', q', h1, h2, h3, h4, h5, h6, h7⟩ := read_fed hf (3 - ((p.stack.length : Int) - p.sp))
  rw [h] at h1
  injection h1 with h1
  injection h1 with e1 e2
  subst e1; subst e2
  refine ⟨_, h4, h5, h3, by rw [h2, List.append_assoc, List.take_append_drop], ?_, by rw [h2]; simp, ?_⟩
  · simp only [List.length_drop, List.length_append]; omega
  · intro he
    by_cases hp : p.eof = true
    · exact Or.inl hp
    · right
      have hp : p.eof = false := by simpa using hp
      rcases hf with ⟨-, hf⟩ | ⟨hf, -⟩
      · unfold Parser.read at h
        by_cases hn : (3 - ((p.stack.length : Int) - p.sp)) ≤ 0
        · rw [if_pos (Or.inl hn)] at h
          injection h with h; injection h with e1 e2
          rw [← e2, hp] at he; cases he
        · rw [if_neg (by simp [hp]; omega)] at h
          rcases hl : readLoop E (3 - ((p.stack.length : Int) - p.sp)).toNat 0 p with ⟨k', p'⟩ | _ | _
          · rw [hl] at h
            injection h with h; injection h with e1 e2
            by_cases hlen : (3 - ((p.stack.length : Int) - p.sp)).toNat ≤ rest.length
            · have := readLoop_eof E env' _ 0 p rest hp hf hlen _ _ hl
              rw [← e2, this] at he; cases he
            · simp only [List.length_append]; omega
          · rw [hl] at h; cases h
          · rw [hl] at h; cases h
      · rw [hp] at hf; cases hf

theorem Reads.trans {σ : Type} {E : Env σ} {env' : σ} {p q r : Parser σ} {a b c : List Scrap} (h1 : Reads E env' p a q b) (h2 : Reads E env' q b r c) :
    Reads E env' p a r c where
  sp := by rw [h2.sp, h1.sp]
  depth := by rw [h2.depth, h1.depth]
  fed := h2.fed
  all := by rw [h2.all, h1.all]
  unread := by
    have e1 := h1.unread
    have e2 := h2.unread
    rw [h1.all, h1.sp] at e2
    omega
  more := Nat.le_trans h1.more h2.more
  ended := by
    intro h
    rcases h2.ended h with h | h
    · exact h1.ended h
    · right; rw [h1.all, h1.sp] at h; exact h

/-- The window, with what reading does. -/
theorem window' {σ : Type} {E : Env σ} {env' : σ} {p : Parser σ} {rest : List Scrap} (hf : Fed E p rest env') (hle : p.sp ≤ p.stack.length)
    {s : Scrap} {t : List Scrap} (h : (p.stack ++ rest).drop p.sp = s :: t) :
    ∃ res p1 rest1 w, p.read E (3 - ((p.stack.length : Int) - p.sp)) = .returns (res, p1) ∧ Reads E env' p rest p1 rest1 ∧
      p1.stack.drop p1.sp = s :: w ∧ p1.sp ≤ p1.stack.length ∧ (2 ≤ w.length ∨ rest1 = []) ∧ t = w ++ rest1 := by
  obtain ⟨res, p1, rest1, w, h1, h2, h3, h4, h5, h6, h7, h8, h9⟩ := window hf hle h
  obtain ⟨rest2, hr⟩ := read_reads hf h1 hle
  have : rest2 = rest1 := List.append_cancel_left (hr.all.trans h5.symm)
  subst this
  exact ⟨res, p1, rest2, w, h1, hr, h6, h7, h8, h9⟩

/-- A step of pass 1 over a scrap to which no rule applies. -/
theorem round_walk {σ : Type} {E : Env σ} {env' : σ} {st : Nat} {p : Parser σ} {rest : List Scrap} {s : Scrap} {t : List Scrap} (sh : Option Rule)
    (hf : Fed E p rest env') (hle : p.sp ≤ p.stack.length) (h : (p.stack ++ rest).drop p.sp = s :: t)
    (hk : ∀ x ∈ s :: t, x.clz < 28) (hc : choose1 ((s :: t).map (·.clz)) = none) :
    ∃ q rest1 sh', Reads E env' p rest q rest1 ∧ q.sp < q.stack.length ∧
      ∀ N, pass1Loop E st (N + 2) p false sh =
        if s.clz = cPDI then .returns (true, { q with sp := q.sp + 1 })
        else if isIsolate s then
          (subIRS E st N q).andThen fun (sp, p) => pass1Loop E st N { p with sp := sp } false sh'
        else pass1Loop E st N { q with sp := q.sp + 1 } false sh' := by
  obtain ⟨res, p1, rest1, w, h1, hr1, h6, h7, h8, h9⟩ := window' hf hle h
  subst h9
  have hlk := window_lookup h8 hk
  obtain ⟨hc1, hc2⟩ : (longAmong keptRules ((s :: (w ++ rest1)).map (·.clz))).filter (·.pass ≤ 1) = none ∧
      (shortAmong keptRules ((s :: (w ++ rest1)).map (·.clz))).filter (·.pass ≤ 1) = none := by
    simpa only [choose1, Option.or_eq_none_iff] using hc
  obtain ⟨res', p2, rest2, w2, g1, hr2, g6, g7, -, -⟩ := window' hr1.fed h7 (by rw [hr1.all, hr1.sp]; exact h)
  refine ⟨p2, rest2, shortAmong keptRules ((s :: (w ++ rest1)).map (·.clz)), hr1.trans hr2, ?_, fun N => ?_⟩
  · have := congrArg List.length g6
    simp only [List.length_drop, List.length_cons] at this
    omega
  · rw [pass1_read h1 (fun _ => rfl), h6]
    dsimp only
    rw [if_neg (by simp), hlk]
    dsimp only
    rw [hc1]
    dsimp only
    rw [pass1_read g1 (fun _ => rfl), g6]
    dsimp only
    rw [if_pos rfl, hc2]

/-- The action of a rule, whatever follows. -/
def Acts (rule : Rule) (m : List Scrap) (rhs : List Scrap) (jmp : Int) : Prop :=
  jmp ≤ rhs.length ∧ rhs.length ≤ rule.lhsLen ∧ rule.lhsLen ≤ m.length ∧ ∀ r, ∃ b, rule.action (m.take rule.lhsLen ++ r) = some (rhs, jmp, b)

/-- A step of pass 1 with a rule. -/
theorem round_rule {σ : Type} {E : Env σ} {env' : σ} {st : Nat} {p : Parser σ} {rest : List Scrap} {s : Scrap} {t rhs : List Scrap} {jmp : Int} {rule : Rule}
    (sh : Option Rule) (hf : Fed E p rest env') (hle : p.sp ≤ p.stack.length) (hst : st ≤ p.sp) (h : (p.stack ++ rest).drop p.sp = s :: t)
    (hk : ∀ x ∈ s :: t, x.clz < 28) (hc : choose1 ((s :: t).map (·.clz)) = some rule) (hl : Acts rule (s :: t) rhs jmp) :
    ∃ q rest1 sh' k, Reads E env' p rest q rest1 ∧ q.sp + rule.lhsLen ≤ q.stack.length ∧
      ∀ N, pass1Loop E st (N + k) p false sh = pass1Loop E st N
        { q with stack := q.stack.take q.sp ++ rhs ++ q.stack.drop (q.sp + rule.lhsLen), sp := jump st q.sp jmp } false sh' := by
  obtain ⟨res, p1, rest1, w, h1, hr1, h6, h7, h8, h9⟩ := window' hf hle h
  subst h9
  have hlk := window_lookup h8 hk
  have hlen3 : rule.lhsLen ≤ 3 := lhs_le rule
  -- after the reduction
  have hgo : ∀ (q : Parser σ) (r' w' : List Scrap) (sh' : Option Rule), q.sp = p.sp → w ++ rest1 = w' ++ r' → (2 ≤ w'.length ∨ r' = []) →
      q.stack.drop q.sp = s :: w' → q.sp + rule.lhsLen ≤ q.stack.length ∧
      ∀ N, (match rule.action (s :: w') with
        | none => Run.panics
        | some (rhs, jmp, _) => (q.reduce rule.lhsLen rhs st).andThen fun p =>
            pass1Loop E st N { p with sp := jump st p.sp jmp } false sh') =
        pass1Loop E st N { q with stack := q.stack.take q.sp ++ rhs ++ q.stack.drop (q.sp + rule.lhsLen), sp := jump st q.sp jmp } false sh' := by
    intro q r' w' sh' q1 q2 q3 q4
    have hll : rule.lhsLen ≤ (s :: w').length := by
      have := hl.2.2.1
      rcases q3 with q3 | q3
      · simp only [List.length_cons]; omega
      · rw [q2, q3, List.append_nil] at this; exact this
    have hql : q.sp + (s :: w').length = q.stack.length := by
      have := congrArg List.length q4
      simp only [List.length_drop, List.length_cons] at this ⊢
      omega
    refine ⟨by omega, fun N => ?_⟩
    obtain ⟨b, hb⟩ := hl.2.2.2 ((s :: w').drop rule.lhsLen)
    have he : (s :: (w ++ rest1)).take rule.lhsLen ++ (s :: w').drop rule.lhsLen = s :: w' := by
      rw [q2, ← List.cons_append, List.take_append_of_le_length hll, List.take_append_drop]
    rw [he] at hb
    rw [hb]
    dsimp only
    rw [reduce_eq q rule.lhsLen rhs st hl.2.1 (by omega) (by omega)]
    rfl
  by_cases hlong : (longAmong keptRules ((s :: (w ++ rest1)).map (·.clz))).filter (·.pass ≤ 1) = none
  · have hshort : (shortAmong keptRules ((s :: (w ++ rest1)).map (·.clz))).filter (·.pass ≤ 1) = some rule := by
      simpa only [choose1, hlong, Option.none_or] using hc
    obtain ⟨res', p2, rest2, w2, g1, hr2, g6, g7, g8, g9⟩ := window' hr1.fed h7 (by rw [hr1.all, hr1.sp]; exact h)
    obtain ⟨e0, e1⟩ := hgo p2 rest2 w2 (shortAmong keptRules ((s :: (w ++ rest1)).map (·.clz))) (by rw [hr2.sp, hr1.sp]) g9 g8 g6
    refine ⟨p2, rest2, shortAmong keptRules ((s :: (w ++ rest1)).map (·.clz)), 2, hr1.trans hr2, e0, fun N => ?_⟩
    rw [← e1, pass1_read h1 (fun _ => rfl), h6]
    dsimp only
    rw [if_neg (by simp), hlk]
    dsimp only
    rw [hlong]
    dsimp only
    rw [pass1_read g1 (fun _ => rfl), g6]
    dsimp only
    rw [if_pos rfl, hshort]
    rfl
  · have hl2 : (longAmong keptRules ((s :: (w ++ rest1)).map (·.clz))).filter (·.pass ≤ 1) = some rule := by
      rw [choose1] at hc
      cases hL : (longAmong keptRules ((s :: (w ++ rest1)).map (·.clz))).filter (·.pass ≤ 1) with
      | none => exact absurd hL hlong
      | some r => rw [hL, Option.some_or] at hc; exact hc
    obtain ⟨e0, e1⟩ := hgo p1 rest1 w (shortAmong keptRules ((s :: (w ++ rest1)).map (·.clz))) hr1.sp rfl h8 h6
    refine ⟨p1, rest1, shortAmong keptRules ((s :: (w ++ rest1)).map (·.clz)), 1, hr1, e0, fun N => ?_⟩
    rw [← e1, pass1_read h1 (fun _ => rfl), h6]
    dsimp only
    rw [if_neg (by simp), hlk]
    dsimp only
    rw [hl2]
    rfl

/-- The scraps that a rule of pass 1 takes together are no isolates. -/
theorem pick1_plain {s : Scrap} {t post : List Scrap} {rule : Rule}
    (hp : pick1 s.clz ((t ++ post)[0]?.map (·.clz)) ((t ++ post)[1]?.map (·.clz)) = some rule) (hl : rule.lhsLen = (s :: t).length) :
    ∀ x ∈ s :: t, isIsolate x = false := by
  have hcls : ∀ (x : Scrap) (c : Class), x.clz = c → c = cEN ∨ c = cAN ∨ c = cES ∨ c = cET ∨ c = cCS ∨ c = cNI → isIsolate x = false := by
    intro x c hx hc
    unfold isIsolate
    rw [hx]
    rcases hc with rfl | rfl | rfl | rfl | rfl | rfl <;> rfl
  have key : (s.clz = cEN ∨ s.clz = cAN ∨ s.clz = cES ∨ s.clz = cET ∨ s.clz = cCS ∨ s.clz = cNI) ∧
      (2 ≤ rule.lhsLen → ∃ b, (t ++ post)[0]?.map (·.clz) = some b ∧ (b = cEN ∨ b = cAN ∨ b = cES ∨ b = cET ∨ b = cCS ∨ b = cNI)) ∧
      (3 ≤ rule.lhsLen → ∃ b, (t ++ post)[1]?.map (·.clz) = some b ∧ (b = cEN ∨ b = cAN ∨ b = cES ∨ b = cET ∨ b = cCS ∨ b = cNI)) ∧ rule.lhsLen ≤ 3 := by
    generalize (t ++ post)[0]?.map (·.clz) = b at hp
    generalize (t ++ post)[1]?.map (·.clz) = c at hp
    unfold pick1 at hp
    repeat' split at hp
    all_goals first
      | (cases hp; done)
      | (injection hp with hp; subst hp
         refine ⟨by simp [*], ?_, ?_, by decide⟩
         · first
             | (intro h; exact absurd h (by decide))
             | (intro _; simp_all [cEN, cAN, cES, cET, cCS, cNI]; done)
         · first
             | (intro h; exact absurd h (by decide))
             | (intro _; simp_all [cEN, cAN, cES, cET, cCS, cNI]; done))
  obtain ⟨k1, k2, k3, k4⟩ := key
  intro x hx
  rw [List.mem_cons] at hx
  rcases hx with rfl | hx
  · exact hcls x _ rfl k1
  · match t, hx, hl, k2, k3 with
    | [y], hx, hl, k2, _ =>
      rw [List.mem_singleton] at hx
      subst hx
      obtain ⟨b, e, hb⟩ := k2 (by rw [hl]; simp)
      exact hcls x b (by simpa using e) hb
    | [y, w], hx, hl, k2, k3 =>
      simp only [List.mem_cons, List.not_mem_nil, or_false] at hx
      rcases hx with rfl | rfl
      · obtain ⟨b, e, hb⟩ := k2 (by rw [hl]; simp)
        exact hcls x b (by simpa using e) hb
      · obtain ⟨b, e, hb⟩ := k3 (by rw [hl]; simp)
        exact hcls x b (by simpa using e) hb
    | _ :: _ :: _ :: _, _, hl, _, _ =>
      rw [hl] at k4
      simp only [List.length_cons] at k4
      omega

/-! ### How much text follows isolates -/

/-- LRI, RLI or FSI -/
def opens (s : Scrap) : Bool := s.clz == cLRI || s.clz == cRLI || s.clz == cFSI

/-- How many scraps there are from the first isolate on. -/
def ahead : List Scrap → Nat
  | [] => 0
  | s :: t => if opens s then t.length + 1 else ahead t

theorem ahead_le : ∀ l : List Scrap, ahead l ≤ l.length
  | [] => Nat.le_refl _
  | s :: t => by
    have := ahead_le t
    rw [ahead]
    split <;> simp only [List.length_cons] <;> omega

theorem ahead_append {l : List Scrap} (h : ∀ x ∈ l, opens x = false) (t : List Scrap) : ahead (l ++ t) = ahead t := by
  induction l with
  | nil => rfl
  | cons x l ih =>
    rw [List.cons_append, ahead, h x (by simp), if_neg (by simp)]
    exact ih fun y hy => h y (by simp [hy])

theorem opens_not {s : Scrap} (h : isIsolate s = false) : opens s = false := by
  unfold isIsolate at h
  unfold opens
  simp only [Bool.or_eq_false_iff] at h ⊢
  exact h.1

theorem notPDI {s : Scrap} (h : isIsolate s = false) : s.clz ≠ cPDI := by
  intro e
  rw [isIsolate, e] at h
  cases h

/-- From a place within `d` isolates on, there are always enough scraps: the parser reads some
scraps in advance for each isolate it is in, and enters none after the end of the input.
An isolate within others does not end directly before the end of the next one. -/
def Far : Nat → List Scrap → Prop
  | _, [] => True
  | d, s :: t => (ahead (s :: t) = 0 ∨ 2 * d + 3 ≤ (s :: t).length) ∧ (s.clz = cPDI → 2 ≤ d → ∃ x t', t = x :: t' ∧ x.clz ≠ cPDI) ∧
    Far (if opens s then d + 1 else if s.clz = cPDI then d - 1 else d) t

theorem Far.ahead {d : Nat} {l : List Scrap} (h : Far d l) : Bidi.ahead l = 0 ∨ 2 * d + 3 ≤ l.length := by
  cases l with
  | nil => exact Or.inl rfl
  | cons s t => exact h.1

theorem Far.tail {d : Nat} {s : Scrap} {t : List Scrap} (hs : isIsolate s = false) (h : Far d (s :: t)) : Far d t := by
  have := h.2.2
  rwa [opens_not hs, if_neg (by simp), if_neg (notPDI hs)] at this

theorem Far.open {d : Nat} {s : Scrap} {t : List Scrap} (hs : opens s = true) (h : Far d (s :: t)) : Far (d + 1) t := by
  have := h.2.2
  rwa [hs, if_pos rfl] at this

theorem Far.close {d : Nat} {s : Scrap} {t : List Scrap} (hs : s.clz = cPDI) (h : Far d (s :: t)) : Far (d - 1) t := by
  have := h.2.2
  have ho : opens s = false := by unfold opens; rw [hs]; rfl
  rwa [ho, if_neg (by simp), if_pos hs] at this

theorem Far.drop {d : Nat} {l t : List Scrap} (hl : ∀ x ∈ l, isIsolate x = false) (h : Far d (l ++ t)) : Far d t := by
  induction l with
  | nil => exact h
  | cons x l ih => exact ih (fun y hy => hl y (by simp [hy])) (Far.tail (hl x (by simp)) h)

theorem Far.append {d : Nat} {l t : List Scrap} (hl : ∀ x ∈ l, isIsolate x = false) (h : Far d t) : Far d (l ++ t) := by
  induction l with
  | nil => exact h
  | cons x l ih =>
    have hx := hl x (by simp)
    have h' := ih fun y hy => hl y (by simp [hy])
    refine ⟨?_, fun e => absurd e (notPDI hx), ?_⟩
    · rw [Bidi.ahead, opens_not hx, if_neg (by simp)]
      rcases h'.ahead with e | e
      · exact Or.inl e
      · right
        show 2 * d + 3 ≤ (l ++ t).length + 1
        omega
    · rw [opens_not hx, if_neg (by simp), if_neg (notPDI hx)]
      exact h'

/-- As many isolates end as begin. -/
def Even (l : List Scrap) : Prop := ∀ d t, Far d (l ++ t) → Far d t

theorem even_plain {l : List Scrap} (hl : ∀ x ∈ l, isIsolate x = false) : Even l := fun _ _ h => h.drop hl

/-- Surroundings of a parser that reads nothing and knows no brackets. -/
def dead : Env Unit where
  recv _ := none
  pairing _ _ := (none, ())
  change _ _ := ()

/-- Pass 2 makes this of a list of scraps, without looking at brackets. -/
def Settles (xs zs : List Scrap) : Prop :=
  ∃ N q, pass2Loop dead 0 N { stack := xs, sp := 0, eof := true, depth := 0, env := () } = .returns q ∧ q.stack = zs ∧ q.sp = zs.length

/-- The scrap for an isolate: `zs` is what its text has become, `z` is the PDI. -/
def isoScrap (z : Scrap) (zs : List Scrap) : Scrap := { clz := cNI, l := (zs.headD z).l, r := z.r, children := [zs ++ [z]] }

/-- What pass 2 can be given inside of an isolate. -/
def Inner (s : Scrap) : Prop := s.clz < 28 ∧ s.clz ≠ cEN ∧ s.clz ≠ cPDI ∧ isBracket s = false ∧ (s.e = cL ∨ s.e = cR)

/-- Pass 1, from a position on, as rewriting of the list of all scraps, read or not. The flag says whether there may be isolates. -/
inductive Red : Bool → List Scrap → Nat → List Scrap → Prop
  | done {iso : Bool} {xs : List Scrap} {sp : Nat} (h : xs.length = sp) : Red iso xs sp xs
  | walk {iso : Bool} {xs ys : List Scrap} {sp : Nat} {s : Scrap} {t : List Scrap} (h : xs.drop sp = s :: t)
      (hk : ∀ x ∈ s :: t, x.clz < 28) (hc : choose1 ((s :: t).map (·.clz)) = none) (hi : isIsolate s = false) (hr : Red iso xs (sp + 1) ys) :
      Red iso xs sp ys
  | rule {iso : Bool} {xs ys : List Scrap} {sp : Nat} {s : Scrap} {t rhs : List Scrap} {jmp : Int} {rule : Rule} (h : xs.drop sp = s :: t)
      (hk : ∀ x ∈ s :: t, x.clz < 28) (hc : choose1 ((s :: t).map (·.clz)) = some rule) (hl : Acts rule (s :: t) rhs jmp)
      (ho : ∀ x ∈ rhs, isIsolate x = false) (hr : Red iso (xs.take sp ++ rhs ++ (s :: t).drop rule.lhsLen) (jump 1 sp jmp) ys) :
      Red iso xs sp ys
  | iso {b : Bool} {xs out : List Scrap} {sp : Nat} {a z : Scrap} {body t ys zs : List Scrap} (h : xs.drop sp = a :: (body ++ z :: t))
      (hk : ∀ x ∈ a :: (body ++ z :: t), x.clz < 28) (ha : a.clz = cLRI ∨ a.clz = cRLI ∨ a.clz = cFSI) (hz : z.clz = cPDI) (hb : body ≠ [])
      (he : Even body) (h1 : Red b (a :: body) 1 (a :: ys)) (hi : ∀ x ∈ a :: ys, Inner x) (h2 : Settles (a :: ys) zs)
      (hr : Red true (xs.take sp ++ isoScrap z zs :: t) sp out) : Red true xs sp out

theorem choose1_pdi {s z : Scrap} {t t' : List Scrap} (hz : z.clz = cPDI) :
    choose1 ((s :: (t ++ z :: t')).map (·.clz)) = choose1 ((s :: t).map (·.clz)) := by
  rw [choose1_eq, choose1_eq]
  match t with
  | [] =>
    simp only [List.nil_append, List.getElem?_cons_zero, Option.map_some, hz, List.getElem?_nil, Option.map_none]
    unfold pick1
    simp [cPDI, cES, cCS, cET, cEN, cNI]
  | [a] =>
    simp only [List.cons_append, List.nil_append, List.getElem?_cons_zero, List.getElem?_cons_succ, Option.map_some, hz, List.getElem?_nil, Option.map_none]
    unfold pick1
    simp [cPDI, cEN, cAN]
  | a :: b :: r => rfl

theorem choose1_PDI {z : Scrap} {t : List Scrap} (hz : z.clz = cPDI) : choose1 ((z :: t).map (·.clz)) = none := by
  rw [choose1_eq, hz]
  rfl

theorem Acts.more {rule : Rule} {m rhs : List Scrap} {jmp : Int} (h : Acts rule m rhs jmp) (r : List Scrap) : Acts rule (m ++ r) rhs jmp :=
  ⟨h.1, h.2.1, by rw [List.length_append]; have := h.2.2.1; omega, by rw [List.take_append_of_le_length h.2.2.1]; exact h.2.2.2⟩

/-- What pass 1 does inside of isolates, `d` of them. -/
def Within1 {σ : Type} (E : Env σ) (env' : σ) (xs : List Scrap) (sp : Nat) (ys : List Scrap) : Prop :=
  ∀ (d : Nat) (base : List Scrap) (z : Scrap) (t : List Scrap) (p : Parser σ) (rest : List Scrap) (sh : Option Rule), 1 ≤ d → z.clz = cPDI →
    (∀ x ∈ z :: t, x.clz < 28) → p.stack ++ rest = base ++ xs ++ z :: t → p.sp = base.length + sp → 1 ≤ sp → sp ≤ xs.length → p.sp ≤ p.stack.length →
    Fed E p rest env' → 1 ≤ p.depth → (∀ x ∈ (xs.take sp).drop 1, isIsolate x = false) → (∀ s ∈ xs.head?, s.clz ≠ cPDI) →
    Far d (xs.drop sp ++ z :: t) → ahead (xs.drop sp ++ z :: t) ≤ rest.length + (2 * d + 3) → (p.eof = true → ahead (xs.drop sp ++ z :: t) = 0) →
    ∃ N p' rest', pass1Loop E (base.length + 1) N p false sh = .returns (true, p') ∧ p'.stack ++ rest' = base ++ ys ++ z :: t ∧
      p'.sp = base.length + ys.length + 1 ∧ p'.sp ≤ p'.stack.length ∧ p'.depth = p.depth ∧ Fed E p' rest' env' ∧
      (t.length ≤ rest'.length + (2 * d + 1) ∨ rest.length ≤ rest'.length) ∧ (p'.eof = true → ahead t = 0)

/-! ### Pass 2 inside an isolate -/

theorem choose2_pdi {s z : Scrap} {t t' : List Scrap} (hz : z.clz = cPDI) :
    choose2 ((s :: (t ++ z :: t')).map (·.clz)) = choose2 ((s :: t).map (·.clz)) := by
  rw [choose2_eq, choose2_eq]
  match t with
  | [] =>
    simp only [List.nil_append, List.getElem?_cons_zero, Option.map_some, hz, List.getElem?_nil, Option.map_none]
    unfold pick2
    simp [cPDI, cL, cR, cNI]
  | [a] =>
    simp only [List.cons_append, List.nil_append, List.getElem?_cons_zero, List.getElem?_cons_succ, Option.map_some, hz, List.getElem?_nil, Option.map_none]
    unfold pick2
    simp [cPDI, cL, cR, cEN, cAN]
  | a :: b :: r => rfl

theorem squash_acts {c : Class} {n : Nat} {m : List Scrap} {rule : Rule} (hr : rule.action = squash c n 0) (hl : rule.lhsLen = n) (h1 : 1 ≤ n)
    (hm : n ≤ m.length) : Acts rule m [fuse c (m.take n)] 0 := by
  refine ⟨by simp, by simpa [hl] using h1, by omega, fun r => ⟨false, ?_⟩⟩
  rw [hr, hl]
  exact squash_fuse c n 0 (m.take n) r (by rw [List.length_take]; omega) h1

/-- What the rules of pass 2 do without European numbers. -/
theorem pick2_acts {s : Scrap} {t : List Scrap} {rule : Rule} (hn : ∀ x ∈ s :: t, Inner x)
    (h : pick2 s.clz (t[0]?.map (·.clz)) (t[1]?.map (·.clz)) = some rule) :
    ∃ rhs jmp, Acts rule (s :: t) rhs jmp ∧ -1 ≤ jmp ∧ ∀ x ∈ rhs, Inner x := by
  have hf : ∀ (c : Class) (m : List Scrap), c = cL ∨ c = cR → Inner (fuse c (s :: m)) := by
    intro c m hc
    have hs := hn s (by simp)
    refine ⟨?_, ?_, ?_, ?_, hs.2.2.2.2⟩
    · show c < 28; rcases hc with rfl | rfl <;> decide
    · show c ≠ _; rcases hc with rfl | rfl <;> decide
    · show c ≠ _; rcases hc with rfl | rfl <;> decide
    · rcases hc with rfl | rfl <;> rfl
  rcases pick2_some (fun x hx => (hn x hx).2.1) h with ⟨c, b, d, post, hc, h1, rfl, h2, h3, -, -⟩ |
    ⟨c, b, post, hc, h1, rfl, h2, -, -⟩ | ⟨b, d, post, h1, rfl, h2, h3, -, -⟩ | ⟨h1, -, -⟩
  · simp only [List.getElem?_cons_zero, List.getElem?_cons_succ, Option.map_some, h1, h2, h3] at h
    have hr : rule.action = squash c 3 0 ∧ rule.lhsLen = 3 := by
      rcases hc with rfl | rfl <;> (injection h with h; subst h; exact ⟨rfl, rfl⟩)
    refine ⟨_, _, squash_acts hr.1 hr.2 (by omega) (by simp), by omega, ?_⟩
    intro x hx
    rw [List.mem_singleton] at hx
    subst hx
    exact hf c [b, d] hc
  · simp only [List.getElem?_cons_zero, Option.map_some, h1, h2] at h
    have hr : rule.action = squash c 2 0 ∧ rule.lhsLen = 2 := by
      rcases hc with rfl | rfl
      · unfold pick2 at h
        simp [cL, cNI] at h
        subst h
        exact ⟨rfl, rfl⟩
      · unfold pick2 at h
        simp [cL, cR, cNI] at h
        subst h
        exact ⟨rfl, rfl⟩
    refine ⟨_, _, squash_acts hr.1 hr.2 (by omega) (by simp), by omega, ?_⟩
    intro x hx
    rw [List.mem_singleton] at hx
    subst hx
    exact hf c [b] hc
  · simp only [List.getElem?_cons_zero, List.getElem?_cons_succ, Option.map_some, h1, h2, h3] at h
    injection h with h
    subst h
    refine ⟨[s, { b with clz := cAN, children := b.children ++ d.children }], 1, ⟨by simp, by simp [Rule.lhsLen, Rule.lhs], by simp [Rule.lhsLen, Rule.lhs],
      fun r => ⟨false, rfl⟩⟩, by omega, ?_⟩
    intro x hx
    simp only [List.mem_cons, List.not_mem_nil, or_false] at hx
    rcases hx with rfl | rfl
    · exact hn _ (by simp)
    · exact ⟨(by decide : (5 : Nat) < 28), (by decide : cAN ≠ cEN), (by decide : cAN ≠ cPDI), rfl, (hn b (by simp)).2.2.2.2⟩
  · have hr : rule = .N2 := by
      rw [h1] at h
      injection h with h
      exact h.symm
    subst hr
    have hs := hn s (by simp)
    refine ⟨[{ s with clz := s.e }], -1, ⟨by simp, by simp [Rule.lhsLen, Rule.lhs], by simp [Rule.lhsLen, Rule.lhs], fun r => ⟨false, rfl⟩⟩, by omega, ?_⟩
    intro x hx
    rw [List.mem_singleton] at hx
    subst hx
    refine ⟨?_, ?_, ?_, ?_, hs.2.2.2.2⟩
    · show s.e < 28; rcases hs.2.2.2.2 with e | e <;> rw [e] <;> decide
    · show s.e ≠ _; rcases hs.2.2.2.2 with e | e <;> rw [e] <;> decide
    · show s.e ≠ _; rcases hs.2.2.2.2 with e | e <;> rw [e] <;> decide
    · show isBracket { s with clz := s.e } = false; rcases hs.2.2.2.2 with e | e <;> rw [e] <;> rfl

theorem passed_false {σ : Type} {p : Parser σ} {l : List Scrap} {r : List Scrap} (h : p.stack = l ++ r) (hsp : p.sp = l.length)
    (hl : ∀ s ∈ l.getLast?, s.clz ≠ cPDI) : p.passed cPDI = false := by
  unfold Parser.passed
  split
  · rw [h, hsp, List.getElem?_append_left (by omega), ← List.getLast?_eq_getElem?]
    cases hg : l.getLast? with
    | none => rfl
    | some s => have := hl s hg; simpa using this
  · rfl

theorem lookup2 {s : Scrap} {t : List Scrap} (hk : ∀ x ∈ s :: t, x.clz < 28) : lookupRules ((s :: t).map (·.clz)) 2 =
    some (longAmong keptRules ((s :: t).map (·.clz)), shortAmong keptRules ((s :: t).map (·.clz))) :=
  lookupRules_eq _ _ (Nat.le_refl _) (by
    intro c hc
    rw [List.mem_map] at hc
    obtain ⟨x, hx, rfl⟩ := hc
    exact hk x hx)

/-- A round of pass 2 at a scrap that is no bracket. -/
theorem pass2_round {σ : Type} {E : Env σ} {st : Nat} {p : Parser σ} {l : List Scrap} {s : Scrap} {t : List Scrap} (h : p.stack = l ++ s :: t) (hsp : p.sp = l.length)
    (hl : ∀ s ∈ l.getLast?, s.clz ≠ cPDI) (hb : isBracket s = false) (hk : ∀ x ∈ s :: t, x.clz < 28) (n : Nat) :
    pass2Loop E st (n + 1) p =
      match choose2 ((s :: t).map (·.clz)) with
      | none => pass2Loop E st n { p with sp := p.sp + 1 }
      | some rule => match rule.action (s :: t) with
        | none => .panics
        | some (rhs, jmp, _) => (p.reduce rule.lhsLen rhs st).andThen fun p => pass2Loop E st n { p with sp := jump 0 p.sp jmp } := by
  rw [pass2Loop, passed_false h hsp hl, if_neg (by simp)]
  have hg : p.stack[p.sp]? = some s := by
    rw [h, hsp, List.getElem?_append_right (Nat.le_refl _), Nat.sub_self, List.getElem?_cons_zero]
  have hd : p.stack.drop p.sp = s :: t := by rw [h, hsp, List.drop_left]
  rw [hg]
  dsimp only
  rw [hb, if_neg (by simp), hd, lookup2 hk]
  rfl

/-- Pass 2 inside an isolate does the same as on its own. -/
theorem pass2_within {σ : Type} {E : Env σ} {base : List Scrap} {z : Scrap} {tail : List Scrap} (hb : ∀ s ∈ base.getLast?, s.clz ≠ cPDI) (hz : z.clz = cPDI)
    (hk : ∀ x ∈ z :: tail, x.clz < 28) : ∀ (N : Nat) (q q' : Parser Unit) (p : Parser σ) (pre suf : List Scrap), q.stack = pre ++ suf → q.sp = pre.length →
    (∀ x ∈ pre ++ suf, Inner x) → (∃ a r, pre ++ suf = a :: r ∧ isIsolate a = true) → pass2Loop dead 0 N q = .returns q' →
    p.stack = base ++ (pre ++ suf) ++ z :: tail → p.sp = base.length + pre.length →
    ∃ M p', pass2Loop E base.length M p = .returns p' ∧ p'.stack = base ++ q'.stack ++ z :: tail ∧ p'.sp = base.length + q'.stack.length + 1 ∧
      p'.eof = p.eof ∧ p'.depth = p.depth ∧ p'.env = p.env := by
  intro N
  induction N with
  | zero => intro q q' p pre suf _ _ _ _ h; cases h
  | succ N ih =>
    intro q q' p pre suf hq hqs hin hhead hrun hp hps
    have hlastI : ∀ s ∈ pre.getLast?, s.clz ≠ cPDI := fun s hs => (hin s (List.mem_append_left _ (List.mem_of_getLast? hs))).2.2.1
    have hlast : ∀ s ∈ (base ++ pre).getLast?, s.clz ≠ cPDI := by
      intro s hs
      rcases List.eq_nil_or_concat pre with rfl | ⟨pre', x, rfl⟩
      · rw [List.append_nil] at hs; exact hb s hs
      · rw [List.concat_eq_append] at hs hlastI
        rw [← List.append_assoc, List.getLast?_concat] at hs
        exact hlastI s (by rw [List.getLast?_concat]; exact hs)
    cases suf with
    | nil =>
      rw [pass2Loop, passed_false (r := []) hq hqs hlastI, if_neg (by simp), List.getElem?_eq_none (by rw [hq, hqs]; simp)] at hrun
      injection hrun with hrun
      subst hrun
      refine ⟨2, { p with sp := p.sp + 1 }, ?_, by rw [hq]; exact hp, ?_, rfl, rfl, rfl⟩
      · rw [pass2_round (l := base ++ pre) (s := z) (t := tail) (by rw [hp]; simp) (by rw [hps]; simp) hlast (by rw [isBracket, hz]; rfl) hk]
        have : choose2 ((z :: tail).map (·.clz)) = none := by rw [choose2_eq, hz]; rfl
        rw [this]
        dsimp only
        have hpass : Parser.passed { p with sp := p.sp + 1 } cPDI = true := by
          unfold Parser.passed
          dsimp only
          rw [if_pos (by omega), Nat.add_sub_cancel, hp, hps, List.append_nil, ← List.length_append, List.getElem?_append_right (Nat.le_refl _), Nat.sub_self]
          simp [hz]
        rw [pass2Loop, hpass, if_pos rfl]
      · show p.sp + 1 = _
        rw [hps, hq, List.append_nil]
    | cons s t =>
      have hinner : ∀ x ∈ s :: t, Inner x := fun x hx => hin x (List.mem_append_right _ hx)
      have hkI : ∀ x ∈ s :: t, x.clz < 28 := fun x hx => (hinner x hx).1
      have hk' : ∀ x ∈ s :: (t ++ z :: tail), x.clz < 28 := by
        intro x hx
        rw [← List.cons_append, List.mem_append] at hx
        rcases hx with hx | hx
        · exact hkI x hx
        · exact hk x hx
      have hbr := (hinner s (by simp)).2.2.2.1
      rw [pass2_round hq hqs hlastI hbr hkI] at hrun
      have hstep := fun n => pass2_round (E := E) (st := base.length) (p := p) (l := base ++ pre) (s := s) (t := t ++ z :: tail) (by rw [hp]; simp) (by rw [hps]; simp)
        hlast hbr hk' n
      rw [choose2_pdi hz] at hstep
      cases hc : choose2 ((s :: t).map (·.clz)) with
      | none =>
        rw [hc] at hrun hstep
        dsimp only at hrun hstep
        obtain ⟨M, p', e⟩ := ih { q with sp := q.sp + 1 } q' { p with sp := p.sp + 1 } (pre ++ [s]) t (by rw [hq]; simp) (by
          show q.sp + 1 = _; rw [hqs]; simp) (by simpa using hin) (by simpa using hhead) hrun (by rw [hp]; simp) (by
          show p.sp + 1 = _; rw [hps]; simp [Nat.add_assoc])
        refine ⟨M + 1, p', ?_, e.2⟩
        rw [hstep]
        exact e.1
      | some rule =>
        rw [hc] at hrun hstep
        dsimp only at hrun hstep
        have hpk : pick2 s.clz (t[0]?.map (·.clz)) (t[1]?.map (·.clz)) = some rule := by rw [← choose2_eq]; exact hc
        obtain ⟨rhs, jmp, ha, hj, hrhs⟩ := pick2_acts hinner hpk
        -- a rule is not applied to the initiator
        have hpre : pre ≠ [] := by
          intro h
          obtain ⟨a, r, h1, h2⟩ := hhead
          rw [h, List.nil_append] at h1
          injection h1 with h1 h3
          subst h1
          unfold isIsolate at h2
          unfold pick2 at hpk
          simp only [Bool.or_eq_true, beq_iff_eq] at h2
          rcases h2 with ((h2 | h2) | h2) | h2 <;> (rw [h2] at hpk; cases hpk)
        have hlp : 1 ≤ pre.length := List.length_pos_iff.mpr hpre
        have hlen := ha.2.2.1
        obtain ⟨b1, hb1⟩ := ha.2.2.2 ((s :: t).drop rule.lhsLen)
        rw [List.take_append_drop] at hb1
        obtain ⟨b2, hb2⟩ := ha.2.2.2 ((s :: t).drop rule.lhsLen ++ z :: tail)
        rw [← List.append_assoc, List.take_append_drop] at hb2
        rw [hb1] at hrun
        rw [← List.cons_append] at hstep
        rw [hb2] at hstep
        dsimp only at hrun hstep
        rw [reduce_eq q rule.lhsLen rhs 0 ha.2.1 (by rw [hq, hqs, List.length_append]; omega) (Nat.zero_le _), Run.andThen_returns] at hrun
        rw [reduce_eq p rule.lhsLen rhs base.length ha.2.1 (by
          rw [hp, hps]; simp only [List.length_append]; omega) (by omega)] at hstep
        simp only [Run.andThen_returns] at hstep
        have hst1 : q.stack.take q.sp ++ rhs ++ q.stack.drop (q.sp + rule.lhsLen) = pre ++ rhs ++ (s :: t).drop rule.lhsLen := by
          rw [hq, hqs, List.take_left, List.drop_length_add_append]
        have hst2 : p.stack.take p.sp ++ rhs ++ p.stack.drop (p.sp + rule.lhsLen) = base ++ (pre ++ rhs ++ (s :: t).drop rule.lhsLen) ++ z :: tail := by
          have e1 : p.stack = (base ++ pre) ++ ((s :: t) ++ z :: tail) := by rw [hp]; simp
          have e2 : p.sp = (base ++ pre).length := by rw [hps, List.length_append]
          rw [e1, e2, List.take_left, List.drop_length_add_append, List.drop_append_of_le_length hlen]
          simp only [List.append_assoc]
        rw [hst1] at hrun
        rw [hst2] at hstep
        have hj2 := ha.1
        have hjl : jump 0 q.sp jmp ≤ (pre ++ rhs ++ (s :: t).drop rule.lhsLen).length := by
          simp only [List.length_append]; unfold jump; omega
        have hcut := List.take_append_drop (jump 0 q.sp jmp) (pre ++ rhs ++ (s :: t).drop rule.lhsLen)
        obtain ⟨M, p', e⟩ := ih { q with stack := pre ++ rhs ++ (s :: t).drop rule.lhsLen, sp := jump 0 q.sp jmp } q'
          { p with stack := base ++ (pre ++ rhs ++ (s :: t).drop rule.lhsLen) ++ z :: tail, sp := jump 0 p.sp jmp }
          ((pre ++ rhs ++ (s :: t).drop rule.lhsLen).take (jump 0 q.sp jmp)) ((pre ++ rhs ++ (s :: t).drop rule.lhsLen).drop (jump 0 q.sp jmp))
          (by rw [hcut])
          (by show jump 0 q.sp jmp = _; rw [List.length_take]; omega)
          (by
            rw [hcut]
            intro x hx
            rw [List.mem_append, List.mem_append] at hx
            rcases hx with (hx | hx) | hx
            · exact hin x (List.mem_append_left _ hx)
            · exact hrhs x hx
            · exact hinner x (List.mem_of_mem_drop hx))
          (by
            rw [hcut]
            obtain ⟨a, r, h1, h2⟩ := hhead
            cases hpe : pre with
            | nil => exact absurd hpe hpre
            | cons x r' =>
              rw [hpe, List.cons_append] at h1
              injection h1 with h1 h3
              subst h1
              exact ⟨x, r' ++ rhs ++ (s :: t).drop rule.lhsLen, by simp, h2⟩)
          hrun
          (by show base ++ _ ++ _ = _; rw [hcut])
          (by
            show jump 0 p.sp jmp = _
            rw [List.length_take, hps]
            rw [hqs] at hjl ⊢
            unfold jump at hjl ⊢
            omega)
        refine ⟨M + 1, p', ?_, e.2⟩
        rw [hstep]
        exact e.1

/-! ### A whole isolate -/

theorem read_three {σ : Type} {E : Env σ} {env' : σ} {p : Parser σ} {rest : List Scrap} (hf : Fed E p rest env') (he : p.eof = false) :
    ∃ k q, p.read E 3 = .returns ((k, true), q) ∧ q.stack = p.stack ++ rest.take 3 ∧ Fed E q (rest.drop 3) env' ∧ q.sp = p.sp ∧ q.depth = p.depth ∧
      (q.eof = true → rest.length < 3) := by
  rcases hf with ⟨-, hf⟩ | ⟨h, -⟩
  · obtain ⟨k', p', h1, h2, h3, h4, h5, -⟩ := readLoop_fed E env' 3 0 p rest he hf
    refine ⟨k', p', ?_, h2, h3, h4, h5, ?_⟩
    · unfold Parser.read
      rw [if_neg (by simp [he])]
      show (readLoop E 3 0 p).andThen _ = _
      rw [h1]
      rfl
    · intro h
      by_cases hl : 3 ≤ rest.length
      · have := readLoop_eof E env' 3 0 p rest he hf hl _ _ h1
        rw [h] at this; cases this
      · omega
  · rw [he] at h; cases h

theorem parse_pass1 {σ : Type} (E : Env σ) (st : Nat) (n : Nat) (p : Parser σ) : parseIRS E st (n + 1) p =
    (Parser.read E { p with depth := p.depth + 1, sp := st + 1 } 3).andThen fun ((_, ok), p) =>
    (if ok then pass1Loop E (st + 1) n p false none else .returns (false, p)).andThen fun (ok, p) =>
    (if ok = true ∨ p.depth = 1 then pass2Loop E st n { p with sp := st } else .returns p).andThen fun p =>
    if ok = true ∧ p.depth > 1 then
      match p.stack[st]?, p.stack[st + (p.sp - st) - 1]? with
      | some first, some last =>
        .returns (([{ clz := cNI, l := first.l, r := last.r,
                      children := [(p.stack.drop st).take (p.sp - st)] }], p.sp - st, ok), { p with depth := p.depth - 1 })
      | _, _ => .panics
    else .returns ((p.stack.drop st, p.sp - st, ok), { p with depth := p.depth - 1 }) := by
  rw [parseIRS]
  rfl

/-- An isolate is entered, resolved and replaced by one scrap. -/
theorem iso_step {σ : Type} {E : Env σ} {env' : σ} {st : Nat} {p : Parser σ} {rest base body t ys zs : List Scrap} {a z : Scrap}
    (hall : p.stack ++ rest = base ++ a :: (body ++ z :: t)) (hsp : p.sp = base.length) (hst : st ≤ base.length) (hlt : p.sp < p.stack.length)
    (hf : Fed E p rest env') (he : p.eof = false) (hdep : 1 ≤ p.depth) (hb : ∀ s ∈ base.getLast?, s.clz ≠ cPDI)
    (hk : ∀ x ∈ z :: t, x.clz < 28) (ha : isIsolate a = true) (hz : z.clz = cPDI)
    (h1 : Within1 E env' (a :: body) 1 (a :: ys)) (hi : ∀ x ∈ a :: ys, Inner x) (h2 : Settles (a :: ys) zs) (hao : opens a = true) (hne : body ≠ []) {d : Nat}
    (hfar : Far d (a :: (body ++ z :: t))) (hal : body.length + t.length + 2 ≤ rest.length + (2 * d + 3)) :
    ∃ N p' rest', subIRS E st N p = .returns (base.length, p') ∧ p'.stack ++ rest' = base ++ isoScrap z zs :: t ∧ base.length ≤ p'.stack.length ∧
      p'.depth = p.depth ∧ Fed E p' rest' env' ∧ t.length ≤ rest'.length + (2 * d + 3) ∧
      (p'.eof = true → ahead t = 0) := by
  -- reading
  obtain ⟨k, q, r1, r2, r3, r4, r5, r6⟩ := read_three (E := E) (env' := env') (p := { p with depth := p.depth + 1, sp := base.length + 1 }) (rest := rest) (by
    rcases hf with ⟨x, y⟩ | ⟨x, -⟩
    · exact Or.inl ⟨x, y⟩
    · rw [he] at x; cases x) he
  have hqs : q.stack ++ rest.drop 3 = base ++ a :: (body ++ z :: t) := by
    rw [r2, List.append_assoc, List.take_append_drop]; exact hall
  have hql : p.stack.length ≤ q.stack.length := by rw [r2]; simp
  have hin : Far (d + 1) (body ++ z :: t) := hfar.open hao
  have hbl := List.length_pos_iff.mpr hne
  -- pass 1
  obtain ⟨N1, p1, rest', a1, a2, a3, a4, a5, a6, a7, a8⟩ := h1 (d + 1) base z t q (rest.drop 3) none (by omega) hz hk
    (by rw [hqs]; simp) (by rw [r4]) (Nat.le_refl _) (by simp) (by rw [r4]; show base.length + 1 ≤ _; omega) r3
    (by rw [r5]; show 1 ≤ p.depth + 1; omega) (by simp) (by
      intro s hs
      simp only [List.head?_cons, Option.mem_def, Option.some.injEq] at hs
      subst hs
      intro e
      unfold opens at hao
      rw [e] at hao; cases hao)
    hin (by
      have := ahead_le (body ++ z :: t)
      simp only [List.length_append, List.length_cons] at this
      show ahead (body ++ z :: t) ≤ _
      rw [List.length_drop]; omega) (by
      intro h
      have := r6 h
      show ahead (body ++ z :: t) = 0
      rcases hin.ahead with h' | h'
      · exact h'
      · simp only [List.length_append, List.length_cons] at h'
        omega)
  -- the part of the stack behind the isolate
  obtain ⟨tail, ht1, ht2⟩ : ∃ tail, p1.stack = base ++ (a :: ys) ++ z :: tail ∧ tail ++ rest' = t := by
    have hlen : p1.sp = (base ++ (a :: ys) ++ [z]).length := by rw [a3]; simp; omega
    have e : p1.stack ++ rest' = (base ++ (a :: ys) ++ [z]) ++ t := by rw [a2]; simp
    have e1 : p1.stack.take p1.sp = base ++ (a :: ys) ++ [z] := by
      rw [← List.take_append_of_le_length (l₂ := rest') a4, e, hlen, List.take_left]
    refine ⟨p1.stack.drop p1.sp, ?_, ?_⟩
    · conv => lhs; rw [← List.take_append_drop p1.sp p1.stack, e1]
      simp
    · rw [← List.drop_append_of_le_length a4, e, hlen, List.drop_left]
  -- pass 2
  obtain ⟨N, q2, s1, s2, s3⟩ := h2
  obtain ⟨N2, p2, b1, b2, b3, b4, b5, b6⟩ := pass2_within (E := E) (tail := tail) hb hz
    (fun x hx => hk x (by
      rw [← ht2]
      rw [List.mem_cons] at hx ⊢
      rcases hx with hx | hx
      · exact Or.inl hx
      · exact Or.inr (List.mem_append_left _ hx)))
    N { stack := a :: ys, sp := 0, eof := true, depth := 0, env := () } q2 { p1 with sp := base.length } [] (a :: ys) rfl rfl
    hi ⟨a, ys, rfl, ha⟩ s1 ht1 rfl
  rw [s2] at b2 b3
  have e1 := Run.le_returns (pass1_more E (Nat.le_max_left N1 N2) q false none) a1
  have e2 := Run.le_returns (pass2_more E (Nat.le_max_right N1 N2) { p1 with sp := base.length }) b1
  have hd1 : p1.depth = p.depth + 1 := by rw [a5, r5]
  have hd2 : p2.depth = p.depth + 1 := by rw [b5]; exact hd1
  have hrl : p2.sp - base.length = zs.length + 1 := by omega
  have hg1 : p2.stack[base.length]? = some (zs.headD z) := by
    rw [b2, List.append_assoc, List.getElem?_append_right (Nat.le_refl _), Nat.sub_self]
    cases zs <;> rfl
  have hg2 : p2.stack[base.length + (p2.sp - base.length) - 1]? = some z := by
    have : base.length + (p2.sp - base.length) - 1 = (base ++ zs).length := by rw [hrl, List.length_append]; omega
    rw [this, b2, List.getElem?_append_right (Nat.le_refl _), Nat.sub_self]
    rfl
  have hch : (p2.stack.drop base.length).take (p2.sp - base.length) = zs ++ [z] := by
    have : zs.length + 1 = (zs ++ [z]).length := by simp
    rw [b2, List.append_assoc, List.drop_left, hrl, this]
    have e : zs ++ z :: tail = (zs ++ [z]) ++ tail := by simp
    rw [e, List.take_left]
  have hparse : parseIRS E base.length (max N1 N2 + 1) p = .returns (([isoScrap z zs], zs.length + 1, true), { p2 with depth := p2.depth - 1 }) := by
    rw [parse_pass1, r1, Run.andThen_returns]
    dsimp only
    rw [if_pos rfl, e1, Run.andThen_returns]
    dsimp only
    rw [if_pos (Or.inl rfl), e2, Run.andThen_returns, if_pos ⟨rfl, by omega⟩, hg1, hg2]
    dsimp only
    rw [hch, hrl]
    rfl
  refine ⟨max N1 N2 + 1 + 1, { p2 with depth := p2.depth - 1, sp := base.length, stack := base ++ isoScrap z zs :: tail }, rest', ?_, ?_, ?_, ?_, ?_, ?_, ?_⟩
  · rw [subIRS]
    dsimp only
    rw [hsp, hparse, Run.andThen_returns]
    dsimp only
    rw [if_pos rfl, reduce_eq _ _ _ _ (by simp) (by show base.length + (zs.length + 1) ≤ p2.stack.length; rw [b2]; simp only [List.length_append, List.length_cons]; omega) hst, Run.andThen_returns]
    have f1 : p2.stack.take base.length = base := by rw [b2, List.append_assoc, List.take_left]
    have f2 : p2.stack.drop (base.length + (zs.length + 1)) = tail := by
      have : base.length + (zs.length + 1) = (base ++ zs ++ [z]).length := by simp
      have e : base ++ zs ++ z :: tail = (base ++ zs ++ [z]) ++ tail := by simp
      rw [b2, this, e, List.drop_left]
    dsimp only
    rw [f1, f2]
    simp
  · simp [ht2]
  · simp
  · show p2.depth - 1 = _; omega
  · rcases a6 with ⟨x, y⟩ | ⟨x, y, w⟩
    · exact Or.inl ⟨by show p2.eof = _; rw [b4]; exact x, by show Feeds E p2.env _ _; rw [b6]; exact y⟩
    · exact Or.inr ⟨by show p2.eof = _; rw [b4]; exact x, y, by show p2.env = _; rw [b6]; exact w⟩
  · rw [List.length_drop] at a7
    rcases a7 with a7 | a7 <;> omega
  · intro h
    exact a8 (by rw [← h]; exact b4.symm)

theorem sub_more {σ : Type} (E : Env σ) {st n m : Nat} (h : n ≤ m) (p : Parser σ) : (subIRS E st n p).le (subIRS E st m p) := by
  induction h with
  | refl => exact Run.le_refl _
  | step _ ih => exact Run.le_trans ih ((parse_le E _).2.2 _ _)

/-- The scraps which are replaced by a rule of pass 1 are no isolates. -/
theorem choose1_plain {s : Scrap} {t : List Scrap} {rule : Rule} (hc : choose1 ((s :: t).map (·.clz)) = some rule) (hl : rule.lhsLen ≤ (s :: t).length) :
    ∀ x ∈ (s :: t).take rule.lhsLen, isIsolate x = false := by
  cases hn : rule.lhsLen with
  | zero => simp
  | succ n =>
    rw [hn] at hl
    simp only [List.length_cons] at hl
    rw [List.take_succ_cons]
    rw [choose1_eq, ← List.take_append_drop n t] at hc
    refine pick1_plain hc ?_
    rw [hn, List.length_cons, List.length_take]
    omega

/-- Pass 1 inside an isolate. -/
theorem pass1_within {σ : Type} {E : Env σ} {env' : σ} {iso : Bool} {xs ys : List Scrap} {sp : Nat} (hr : Red iso xs sp ys) : Within1 E env' xs sp ys := by
  induction hr with
  | done h =>
    rename_i iso xs sp
    intro d base z t p rest sh hd1 hz hk hxs hsp h1 h2 hle hf hdep hpre hhead hfar hal hend
    have hd : (p.stack ++ rest).drop p.sp = z :: t := by
      rw [hxs, hsp, ← h, ← List.length_append, List.drop_left]
    have hxd : xs.drop sp ++ z :: t = z :: t := by rw [← h, List.drop_length, List.nil_append]
    rw [hxd] at hfar hal hend
    obtain ⟨q, rest1, sh', hr, hlt, hgo⟩ := round_walk (st := base.length + 1) sh hf hle hd hk (choose1_PDI hz)
    have hlen : (p.stack ++ rest).length = p.sp + (1 + t.length) := by
      rw [hxs, hsp]; simp only [List.length_append, List.length_cons]; omega
    have haz : ahead (z :: t) = ahead t := by
      rw [ahead, if_neg]
      unfold opens; rw [hz]; decide
    refine ⟨0 + 2, { q with sp := q.sp + 1 }, rest1, by rw [hgo, if_pos hz], by rw [← hxs, ← hr.all], ?_, hlt, hr.depth, hr.fed, ?_, ?_⟩
    · show q.sp + 1 = _; rw [hr.sp, hsp, h]
    · have := hr.unread; omega
    · intro he
      rcases hr.ended he with h | h
      · rw [← haz]; exact hend h
      · rcases (hfar.close hz).ahead with h' | h'
        · exact h'
        · omega
  | walk h hk hc hi hr ih =>
    rename_i iso xs ys sp s t'
    intro d base z t p rest sh hd1 hz hkz hxs hsp h1 h2 hle hf hdep hpre hhead hfar hal hend
    have hsplt : sp < xs.length := by
      have := congrArg List.length h
      simp only [List.length_drop, List.length_cons] at this; omega
    have hd : (p.stack ++ rest).drop p.sp = s :: (t' ++ z :: t) := by
      rw [hxs, hsp, List.append_assoc, ← List.drop_drop, List.drop_left, List.drop_append_of_le_length (by omega), h]
      rfl
    obtain ⟨q, rest1, sh', hr, hlt, hgo⟩ := round_walk (st := base.length + 1) sh hf hle hd (by
      intro x hx
      rw [← List.cons_append, List.mem_append] at hx
      rcases hx with hx | hx
      · exact hk x hx
      · exact hkz x hx) (by rw [choose1_pdi hz]; exact hc)
    have hlen : (p.stack ++ rest).length = p.sp + (xs.length - sp + 1 + t.length) := by
      rw [hxs, hsp]; simp only [List.length_append, List.length_cons]; omega
    have hdrop : xs.drop (sp + 1) = t' := by rw [← List.drop_drop, h]; rfl
    rw [h, List.cons_append] at hfar hal hend
    have hgt : ahead (s :: (t' ++ z :: t)) = ahead (t' ++ z :: t) := by rw [ahead, opens_not hi, if_neg (by simp)]
    rw [hgt] at hal hend
    have htl : t'.length + sp + 1 = xs.length := by
      have := congrArg List.length h
      simp only [List.length_drop, List.length_cons] at this; omega
    have hal' := ahead_le (t' ++ z :: t)
    simp only [List.length_append, List.length_cons] at hal'
    have hun := hr.unread
    have hfar' := hfar.tail hi
    obtain ⟨N, p', rest', e1, e2, e3, e4, e5, e6, e7, e8⟩ := ih d base z t { q with sp := q.sp + 1 } rest1 sh' hd1 hz hkz (by rw [← hxs, ← hr.all])
      (by show q.sp + 1 = _; rw [hr.sp, hsp]; omega) (by omega) (by omega) hlt hr.fed (by show 1 ≤ q.depth; rw [hr.depth]; exact hdep) (by
        have e : xs.take (sp + 1) = xs.take sp ++ [s] := by
          rw [List.take_add, h]; rfl
        have : (xs.take sp).length = sp := by rw [List.length_take]; omega
        rw [e, List.drop_append_of_le_length (by omega)]
        intro x hx
        rw [List.mem_append, List.mem_singleton] at hx
        rcases hx with hx | rfl
        · exact hpre x hx
        · exact hi) hhead (by rw [hdrop]; exact hfar') (by rw [hdrop]; omega) (by
        intro he
        rw [hdrop]
        rcases hr.ended he with h | h
        · exact hend h
        · rcases hfar'.ahead with h' | h'
          · exact h'
          · simp only [List.length_append, List.length_cons] at h'
            omega)
    refine ⟨N + 2, p', rest', ?_, e2, e3, e4, by rw [e5]; exact hr.depth, e6, ?_, e8⟩
    · rw [hgo, if_neg (notPDI hi), if_neg (by rw [hi]; simp), e1]
    · rcases e7 with e7 | e7
      · exact Or.inl e7
      · omega
  | rule h hk hc hl ho hr ih =>
    rename_i iso xs ys sp s t' rhs jmp rule
    intro d base z t p rest sh hd1 hz hkz hxs hsp h1 h2 hle hf hdep hpre hhead hfar hal hend
    have hsplt : sp + (s :: t').length = xs.length := by
      have := congrArg List.length h
      simp only [List.length_drop, List.length_cons] at this ⊢; omega
    have hspl : sp + (t'.length + 1) = xs.length := hsplt
    have hd : (p.stack ++ rest).drop p.sp = s :: (t' ++ z :: t) := by
      rw [hxs, hsp, List.append_assoc, ← List.drop_drop, List.drop_left, List.drop_append_of_le_length (by omega), h]
      rfl
    obtain ⟨q, rest1, sh', k, hr, hlt, hgo⟩ := round_rule (st := base.length + 1) sh hf hle (by omega) hd (by
      intro x hx
      rw [← List.cons_append, List.mem_append] at hx
      rcases hx with hx | hx
      · exact hk x hx
      · exact hkz x hx) (by rw [choose1_pdi hz]; exact hc) (hl.more (z :: t))
    have hlen : (p.stack ++ rest).length = p.sp + (xs.length - sp + 1 + t.length) := by
      rw [hxs, hsp]; simp only [List.length_append, List.length_cons]; omega
    have hl1 := hl.1
    have hl2 := hl.2.1
    have hl3 := hl.2.2.1
    have hj : jump (base.length + 1) q.sp jmp = base.length + jump 1 sp jmp := by
      rw [hr.sp, hsp]; unfold jump; omega
    have hql : q.sp ≤ q.stack.length := by omega
    have htl : (xs.take sp).length = sp := by rw [List.length_take]; omega
    have hun := hr.unread
    -- the scraps from the new position on
    have hplain := choose1_plain hc hl3
    have hj1 : 1 ≤ jump 1 sp jmp := by unfold jump; omega
    have hj2 : jump 1 sp jmp ≤ sp + rhs.length := by unfold jump; omega
    have hmem : ∀ x ∈ (xs.take sp ++ rhs).drop 1, isIsolate x = false := by
      rw [List.drop_append_of_le_length (by omega)]
      intro x hx
      rw [List.mem_append] at hx
      rcases hx with hx | hx
      · exact hpre x hx
      · exact ho x hx
    have hcut : (xs.take sp ++ rhs ++ (s :: t').drop rule.lhsLen).drop (jump 1 sp jmp) = (xs.take sp ++ rhs).drop (jump 1 sp jmp) ++ (s :: t').drop rule.lhsLen := by
      rw [List.drop_append_of_le_length (by rw [List.length_append, htl]; exact hj2)]
    have hmid : ∀ x ∈ (xs.take sp ++ rhs).drop (jump 1 sp jmp), isIsolate x = false := by
      intro x hx
      refine hmem x ?_
      have : jump 1 sp jmp = 1 + (jump 1 sp jmp - 1) := by omega
      rw [this, ← List.drop_drop] at hx
      exact List.mem_of_mem_drop hx
    have hsplit : xs.drop sp ++ z :: t = (s :: t').take rule.lhsLen ++ ((s :: t').drop rule.lhsLen ++ z :: t) := by
      rw [h, ← List.append_assoc, List.take_append_drop]
    rw [hsplit] at hfar hal hend
    rw [ahead_append (fun x hx => opens_not (hplain x hx))] at hal hend
    have hfar' := hfar.drop hplain
    have hcut' : (xs.take sp ++ rhs ++ (s :: t').drop rule.lhsLen).drop (jump 1 sp jmp) ++ z :: t =
        (xs.take sp ++ rhs).drop (jump 1 sp jmp) ++ ((s :: t').drop rule.lhsLen ++ z :: t) := by rw [hcut, List.append_assoc]
    have hal' := ahead_le ((s :: t').drop rule.lhsLen ++ z :: t)
    simp only [List.length_append, List.length_drop, List.length_cons] at hal'
    obtain ⟨N, p', rest', e1, e2, e3, e4, e5, e6, e7, e8⟩ := ih d base z t
      { q with stack := q.stack.take q.sp ++ rhs ++ q.stack.drop (q.sp + rule.lhsLen), sp := jump (base.length + 1) q.sp jmp } rest1 sh' hd1 hz hkz
      (by
        show q.stack.take q.sp ++ rhs ++ q.stack.drop (q.sp + rule.lhsLen) ++ rest1 = _
        have e1 : q.stack.take q.sp = base ++ xs.take sp := by
          rw [← List.take_append_of_le_length (l₂ := rest1) hql, hr.all, hxs, hr.sp, hsp, List.append_assoc, List.take_length_add_append,
            List.take_append_of_le_length h2]
        have e2 : q.stack.drop (q.sp + rule.lhsLen) ++ rest1 = (s :: t').drop rule.lhsLen ++ z :: t := by
          rw [← List.drop_append_of_le_length hlt, ← List.drop_drop, hr.all, hr.sp, hd, ← List.cons_append,
            List.drop_append_of_le_length hl3]
        rw [e1, List.append_assoc _ (q.stack.drop _) rest1, e2]
        simp only [List.append_assoc])
      (by exact hj)
      hj1
      (by
        simp only [List.length_append, List.length_take, List.length_drop]
        unfold jump; omega)
      (by
        show jump _ _ _ ≤ _
        simp only [List.length_append, List.length_take, List.length_drop]
        have := hr.sp
        unfold jump; omega) hr.fed (by show 1 ≤ q.depth; rw [hr.depth]; exact hdep)
      (by
        rw [List.take_append_of_le_length (by rw [List.length_append, htl]; exact hj2)]
        intro x hx
        refine hmem x ?_
        rw [List.drop_take] at hx
        exact List.mem_of_mem_take hx)
      (by
        intro x hx
        refine hhead x ?_
        cases hxx : xs with
        | nil => rw [hxx] at hsplt; simp at hsplt
        | cons y ys =>
          obtain ⟨n, rfl⟩ : ∃ n, sp = n + 1 := ⟨sp - 1, by omega⟩
          rw [hxx] at hx
          simpa using hx)
      (by rw [hcut']; exact hfar'.append hmid)
      (by rw [hcut', ahead_append (fun x hx => opens_not (hmid x hx))]; omega)
      (by
        intro he
        rw [hcut', ahead_append (fun x hx => opens_not (hmid x hx))]
        rcases hr.ended he with h | h
        · exact hend h
        · rcases hfar'.ahead with h' | h'
          · exact h'
          · simp only [List.length_append, List.length_drop, List.length_cons] at h'
            omega)
    refine ⟨N + k, p', rest', by rw [hgo, e1], e2, e3, e4, by rw [e5]; exact hr.depth, e6, ?_, e8⟩
    rcases e7 with e7 | e7
    · exact Or.inl e7
    · simp only [List.length_cons] at hsplt
      omega
  | iso h hk ha hz hb hev h1 hi h2 hr ih1 ih =>
    rename_i b xs out sp a z' body t' ys zs
    intro d base z t p rest sh hd1 hzz hkz hxs hsp hs1 hs2 hle hf hdep hpre hhead hfar hal hend
    have hisoa : isIsolate a = true ∧ a.clz ≠ cPDI ∧ opens a = true := by
      unfold isIsolate opens
      rcases ha with ha | ha | ha <;> rw [ha] <;> decide
    have hc : choose1 ((a :: (body ++ z' :: (t' ++ z :: t))).map (·.clz)) = none := by
      rw [choose1_eq]
      rcases ha with ha | ha | ha <;> rw [ha] <;> rfl
    have hd : (p.stack ++ rest).drop p.sp = a :: (body ++ z' :: (t' ++ z :: t)) := by
      rw [hxs, hsp, List.append_assoc, ← List.drop_drop, List.drop_left, List.drop_append_of_le_length (by omega), h]
      simp
    obtain ⟨q, rest1, sh', hrd, hlt, hgo⟩ := round_walk (st := base.length + 1) sh hf hle hd (by
      intro x hx
      have : x ∈ (a :: (body ++ z' :: t')) ++ z :: t := by simpa using hx
      rw [List.mem_append] at this
      rcases this with hx | hx
      · exact hk x hx
      · exact hkz x hx) hc
    have hsl : sp + (a :: (body ++ z' :: t')).length = xs.length := by
      have := congrArg List.length h
      simp only [List.length_drop, List.length_cons] at this ⊢; omega
    have hlx : xs.length = sp + (body.length + t'.length + 2) := by
      rw [← hsl]; simp only [List.length_cons, List.length_append]; omega
    have hbl : 1 ≤ body.length := List.length_pos_iff.mpr hb
    have hxd : xs.drop sp ++ z :: t = a :: (body ++ z' :: (t' ++ z :: t)) := by rw [h]; simp
    rw [hxd] at hfar hal hend
    have hag : ahead (a :: (body ++ z' :: (t' ++ z :: t))) = body.length + t'.length + t.length + 3 := by
      rw [ahead, hisoa.2.2, if_pos rfl]
      simp only [List.length_append, List.length_cons]; omega
    have hlen : (p.stack ++ rest).length = p.sp + (body.length + t'.length + t.length + 3) := by
      rw [hxs, hsp]; simp only [List.length_append, List.length_cons]; omega
    have htl : (xs.take sp).length = sp := by rw [List.length_take]; omega
    have hun := hrd.unread
    have heof : q.eof = false := by
      cases he : q.eof with
      | false => rfl
      | true =>
        rcases hrd.ended he with h | h
        · have := hend h; omega
        · omega
    have hfc : Far d (t' ++ z :: t) := (hev _ _ (hfar.open hisoa.2.2)).close hz
    have ht' : 1 ≤ t'.length := by
      obtain ⟨x, w, e, hx⟩ := (hev _ _ (hfar.open hisoa.2.2)).2.1 hz (by omega)
      cases t' with
      | nil =>
        injection e with e1 e2
        rw [← e1] at hx
        exact absurd hzz hx
      | cons y t' => simp
    obtain ⟨N1, p1, rest2, a1, a2, a3, a4, a5, a6, a7⟩ := iso_step (E := E) (env' := env') (st := base.length + 1) (p := q) (rest := rest1) (base := base ++ xs.take sp) (a := a)
      (z := z') (d := d) (body := body) (t := t' ++ z :: t) (by
        have hx : xs.take sp ++ a :: (body ++ z' :: t') = xs := by rw [← h, List.take_append_drop]
        have := congrArg (fun l => base ++ l ++ z :: t) hx
        rw [hrd.all, hxs, ← this]; simp) (by rw [hrd.sp, hsp, List.length_append, htl])
      (by rw [List.length_append, htl]; omega) hlt hrd.fed heof (by rw [hrd.depth]; exact hdep)
      (by
        intro x hx
        have hne : xs.take sp ≠ [] := by
          intro e
          rw [e] at htl
          simp only [List.length_nil] at htl
          omega
        rw [List.getLast?_append, List.getLast?_eq_some_getLast hne, Option.some_or, ← List.getLast?_eq_some_getLast hne] at hx
        rcases List.mem_of_getLast? hx with hm
        obtain ⟨n, hn⟩ : ∃ n, sp = n + 1 := ⟨sp - 1, by omega⟩
        cases hxx : xs with
        | nil => rw [hxx] at hlx; simp at hlx
        | cons y ys =>
          have hh : xs.take sp = y :: (xs.take sp).drop 1 := by rw [hxx, hn]; simp
          rw [hh, List.mem_cons] at hm
          rcases hm with rfl | hm
          · exact hhead x (by rw [hxx]; rfl)
          · exact notPDI (hpre x hm))
      (fun x hx => by
        have : x ∈ (z' :: t') ++ z :: t := by simpa using hx
        rw [List.mem_append] at this
        rcases this with hx | hx
        · exact hk x (by rw [List.mem_cons, List.mem_append]; exact Or.inr (Or.inr hx))
        · exact hkz x hx) hisoa.1 hz ih1 hi h2 hisoa.2.2 hb hfar (by
        simp only [List.length_append, List.length_cons]; omega)
    have hdt : (xs.take sp ++ isoScrap z' zs :: t').drop sp = isoScrap z' zs :: t' := by
      conv => lhs; arg 1; rw [← htl]
      rw [List.drop_left]
    have hiz : isIsolate (isoScrap z' zs) = false := rfl
    have haht : ahead (isoScrap z' zs :: (t' ++ z :: t)) = ahead (t' ++ z :: t) := by rw [ahead]; rfl
    have hatl := ahead_le (t' ++ z :: t)
    simp only [List.length_append, List.length_cons] at a6 hatl
    obtain ⟨N2, p', rest', e1, e2, e3, e4, e5, e6, e7, e8⟩ := ih d base z t { p1 with sp := (base ++ xs.take sp).length } rest2 sh' hd1 hzz hkz (by rw [a2]; simp)
      (by show (base ++ xs.take sp).length = _; rw [List.length_append, htl]) hs1 (by simp; omega) (by exact a3) a5 (by show 1 ≤ p1.depth; rw [a4, hrd.depth]; exact hdep)
      (by
        have : (xs.take sp ++ isoScrap z' zs :: t').take sp = xs.take sp := by
          conv => lhs; arg 1; rw [← htl]
          rw [List.take_left]
        rw [this]; exact hpre)
      (by
        intro x hx
        refine hhead x ?_
        cases hxx : xs with
        | nil => rw [hxx] at hlx; simp at hlx
        | cons y ys =>
          obtain ⟨n, rfl⟩ : ∃ n, sp = n + 1 := ⟨sp - 1, by omega⟩
          rw [hxx] at hx
          simpa using hx)
      (by rw [hdt]; exact hfc.append (l := [isoScrap z' zs]) (by simp [hiz]))
      (by rw [hdt, List.cons_append, haht]; omega)
      (by
        intro he
        rw [hdt, List.cons_append, haht]
        exact a7 he)
    have f1 := Run.le_returns (pass1_more E (Nat.le_max_right N1 N2) _ false sh') e1
    refine ⟨max N1 N2 + 2, p', rest', ?_, e2, e3, e4, by rw [e5]; show p1.depth = _; rw [a4, hrd.depth], e6, ?_, e8⟩
    · rw [hgo, if_neg hisoa.2.1, if_pos hisoa.1]
      have f2 : subIRS E (base.length + 1) (max N1 N2) q = .returns ((base ++ xs.take sp).length, p1) :=
        Run.le_returns (sub_more E (Nat.le_max_left N1 N2) q) a1
      rw [f2, Run.andThen_returns]
      exact f1
    · rcases e7 with e7 | e7
      · exact Or.inl e7
      · left; omega

/-! ### Pass 1 over a text with isolates -/

/-- Pass 1 carries out a rewriting. -/
theorem pass1_red {σ : Type} {E : Env σ} {env' : σ} {iso : Bool} {xs out : List Scrap} {sp : Nat} (hr : Red iso xs sp out) :
    ∀ (p : Parser σ) (rest : List Scrap) (sh : Option Rule), p.stack ++ rest = xs → p.sp = sp → 1 ≤ sp → sp ≤ p.stack.length → Fed E p rest env' →
    1 ≤ p.depth → (∀ x ∈ (xs.take sp).drop 1, isIsolate x = false) → (∀ s ∈ xs.head?, s.clz ≠ cPDI) → Far 0 (xs.drop sp) →
    ahead (xs.drop sp) ≤ rest.length + 3 → (p.eof = true → ahead (xs.drop sp) = 0) →
    ∃ N p', pass1Loop E 1 N p false sh = .returns (false, p') ∧ p'.stack = out ∧ p'.eof = true ∧ p'.env = env' ∧ p'.depth = p.depth := by
  induction hr with
  | done h =>
    rename_i iso xs sp
    intro p rest sh hxs hsp h1 hle hf _ _ _ _ _ _
    exact pass1_reduces (Reduces.done h) p rest sh hxs hsp h1 hle hf
  | walk h hk hc hi hr ih =>
    rename_i iso xs ys sp s t
    intro p rest sh hxs hsp h1 hle hf hd hpre hhead hroom hfar hend
    obtain ⟨q, rest1, sh', hrd, hlt, hgo⟩ := round_walk (st := 1) sh hf (by omega) (by rw [hxs, hsp]; exact h) hk hc
    have hdrop : xs.drop (sp + 1) = t := by rw [← List.drop_drop, h]; rfl
    have hgt : ahead (xs.drop sp) = ahead t := by rw [h, ahead, opens_not hi, if_neg (by simp)]
    have hsl : sp < xs.length := by
      have := congrArg List.length h
      simp only [List.length_drop, List.length_cons] at this; omega
    have hal := ahead_le (xs.drop sp)
    rw [List.length_drop] at hal
    have hun := hrd.unread
    have hroom' : Far 0 t := by
      rw [h] at hroom
      exact hroom.tail hi
    obtain ⟨N, p', e1, e2, e3, e4, e5⟩ := ih { q with sp := q.sp + 1 } rest1 sh' (by rw [← hxs, ← hrd.all]) (by show q.sp + 1 = _; rw [hrd.sp, hsp])
      (by omega) (by have := hrd.sp; show sp + 1 ≤ q.stack.length; omega) hrd.fed (by show 1 ≤ q.depth; rw [hrd.depth]; exact hd) (by
        have e : xs.take (sp + 1) = xs.take sp ++ [s] := by
          rw [List.take_add, h]; rfl
        have : (xs.take sp).length = sp := by rw [List.length_take]; omega
        rw [e, List.drop_append_of_le_length (by omega)]
        intro x hx
        rw [List.mem_append, List.mem_singleton] at hx
        rcases hx with hx | rfl
        · exact hpre x hx
        · exact hi) hhead (by rw [hdrop]; exact hroom') (by
        rw [hdrop, ← hgt]
        rw [hxs, hsp] at hun
        omega) (by
        intro he
        rw [hdrop, ← hgt]
        rcases hrd.ended he with h | h
        · exact hend h
        · rw [hxs, hsp] at h
          rcases hroom.ahead with h' | h'
          · exact h'
          · rw [List.length_drop] at h'
            omega)
    refine ⟨N + 2, p', ?_, e2, e3, e4, by rw [e5]; exact hrd.depth⟩
    rw [hgo, if_neg (by intro h; rw [isIsolate, h] at hi; cases hi), if_neg (by rw [hi]; simp), e1]
  | rule h hk hc hl ho hr ih =>
    rename_i iso xs ys sp s t rhs jmp rule
    intro p rest sh hxs hsp h1 hle hf hd hpre hhead hroom hfar hend
    obtain ⟨q, rest1, sh', k, hrd, hlt, hgo⟩ := round_rule (st := 1) sh hf (by omega) (by omega) (by rw [hxs, hsp]; exact h) hk hc hl
    have hsl : sp + (s :: t).length = xs.length := by
      have := congrArg List.length h
      simp only [List.length_drop, List.length_cons] at this ⊢; omega
    have hl1 := hl.1
    have hl2 := hl.2.1
    have hl3 := hl.2.2.1
    have hql : q.sp ≤ q.stack.length := by omega
    have htl : (xs.take sp).length = sp := by rw [List.length_take]; omega
    have hal := ahead_le (xs.drop sp)
    rw [List.length_drop] at hal
    have hun := hrd.unread
    rw [hxs, hsp] at hun
    -- the scraps from the new position on
    have hj1 : 1 ≤ jump 1 sp jmp := by unfold jump; omega
    have hj2 : jump 1 sp jmp ≤ sp + rhs.length := by unfold jump; omega
    have hmem : ∀ x ∈ (xs.take sp ++ rhs).drop 1, isIsolate x = false := by
      rw [List.drop_append_of_le_length (by omega)]
      intro x hx
      rw [List.mem_append] at hx
      rcases hx with hx | hx
      · exact hpre x hx
      · exact ho x hx
    have hcut : (xs.take sp ++ rhs ++ (s :: t).drop rule.lhsLen).drop (jump 1 sp jmp) = (xs.take sp ++ rhs).drop (jump 1 sp jmp) ++ (s :: t).drop rule.lhsLen := by
      rw [List.drop_append_of_le_length (by rw [List.length_append, htl]; exact hj2)]
    have hmid : ∀ x ∈ (xs.take sp ++ rhs).drop (jump 1 sp jmp), isIsolate x = false := by
      intro x hx
      refine hmem x ?_
      have : jump 1 sp jmp = 1 + (jump 1 sp jmp - 1) := by omega
      rw [this, ← List.drop_drop] at hx
      exact List.mem_of_mem_drop hx
    have hplain := choose1_plain hc hl3
    have hsplit : s :: t = (s :: t).take rule.lhsLen ++ (s :: t).drop rule.lhsLen := (List.take_append_drop _ _).symm
    have hah : ahead ((xs.take sp ++ rhs ++ (s :: t).drop rule.lhsLen).drop (jump 1 sp jmp)) ≤ ahead (xs.drop sp) := by
      rw [hcut, ahead_append (fun x hx => opens_not (hmid x hx)), h]
      conv => rhs; rw [hsplit, ahead_append (fun x hx => opens_not (hplain x hx))]
      exact Nat.le_refl _
    have hroom' : Far 0 ((s :: t).drop rule.lhsLen) := by
      rw [h, hsplit] at hroom
      exact hroom.drop hplain
    obtain ⟨N, p', e1, e2, e3, e4, e5⟩ := ih
      { q with stack := q.stack.take q.sp ++ rhs ++ q.stack.drop (q.sp + rule.lhsLen), sp := jump 1 q.sp jmp } rest1 sh'
      (by
        show q.stack.take q.sp ++ rhs ++ q.stack.drop (q.sp + rule.lhsLen) ++ rest1 = _
        have e1 : q.stack.take q.sp = xs.take sp := by
          rw [← List.take_append_of_le_length (l₂ := rest1) hql, hrd.all, hxs, hrd.sp, hsp]
        have e2 : q.stack.drop (q.sp + rule.lhsLen) ++ rest1 = (s :: t).drop rule.lhsLen := by
          rw [← List.drop_append_of_le_length hlt, ← List.drop_drop, hrd.all, hxs, hrd.sp, hsp, h]
        rw [e1, List.append_assoc _ (q.stack.drop _) rest1, e2])
      (by show jump 1 q.sp jmp = _; rw [hrd.sp, hsp]) hj1
      (by
        show jump _ _ _ ≤ _
        simp only [List.length_append, List.length_take, List.length_drop]
        have := hrd.sp
        omega) hrd.fed (by show 1 ≤ q.depth; rw [hrd.depth]; exact hd)
      (by
        rw [List.take_append_of_le_length (by rw [List.length_append, htl]; exact hj2)]
        intro x hx
        refine hmem x ?_
        rw [List.drop_take] at hx
        exact List.mem_of_mem_take hx)
      (by
        intro x hx
        refine hhead x ?_
        cases hxx : xs with
        | nil => rw [hxx] at hsl; simp at hsl
        | cons y ys =>
          obtain ⟨n, rfl⟩ : ∃ n, sp = n + 1 := ⟨sp - 1, by omega⟩
          rw [hxx] at hx
          simpa using hx)
      (by rw [hcut]; exact hroom'.append hmid)
      (by omega)
      (by
        intro he
        have : ahead (xs.drop sp) = 0 := by
          rcases hrd.ended he with h | h
          · exact hend h
          · rw [hxs, hsp] at h
            rcases hroom.ahead with h' | h'
            · exact h'
            · rw [List.length_drop] at h'
              omega
        omega)
    refine ⟨N + k, p', ?_, e2, e3, e4, by rw [e5]; exact hrd.depth⟩
    rw [hgo, e1]
  | iso h hk ha hz hb hev h1 hi h2 hr ih1 ih =>
    rename_i b xs out sp a z body t ys zs
    intro p rest sh hxs hsp hsp1 hle hf hd hpre hhead hroom hfar hend
    have hisoa : isIsolate a = true ∧ a.clz ≠ cPDI ∧ opens a = true := by
      unfold isIsolate opens
      rcases ha with ha | ha | ha <;> rw [ha] <;> decide
    have hc : choose1 ((a :: (body ++ z :: t)).map (·.clz)) = none := by
      rw [choose1_eq]
      rcases ha with ha | ha | ha <;> rw [ha] <;> rfl
    obtain ⟨q, rest1, sh', hrd, hlt, hgo⟩ := round_walk (st := 1) sh hf (by omega) (by rw [hxs, hsp]; exact h) hk hc
    have hsl : sp + (a :: (body ++ z :: t)).length = xs.length := by
      have := congrArg List.length h
      simp only [List.length_drop, List.length_cons] at this ⊢; omega
    have hbl : 1 ≤ body.length := List.length_pos_iff.mpr hb
    have hag : ahead (xs.drop sp) = body.length + t.length + 2 := by
      rw [h, ahead, hisoa.2.2, if_pos rfl]
      simp only [List.length_append, List.length_cons]; omega
    have hlx : xs.length = sp + (body.length + t.length + 2) := by
      rw [← hsl]; simp only [List.length_cons, List.length_append]; omega
    have htl : (xs.take sp).length = sp := by rw [List.length_take]; omega
    have hun := hrd.unread
    rw [hxs, hsp] at hun
    have heof : q.eof = false := by
      cases he : q.eof with
      | false => rfl
      | true =>
        rcases hrd.ended he with h | h
        · have := hend h; omega
        · rw [hxs, hsp] at h; omega
    obtain ⟨N1, p1, rest2, a1, a2, a3, a4, a5, a6, a7⟩ := iso_step (E := E) (env' := env') (st := 1) (p := q) (rest := rest1) (base := xs.take sp) (a := a) (z := z)
      (by rw [hrd.all, hxs, ← h, List.take_append_drop]) (by rw [hrd.sp, hsp, htl]) (by omega) hlt hrd.fed heof (by rw [hrd.depth]; exact hd)
      (by
        intro x hx
        rcases List.mem_of_getLast? hx with hm
        obtain ⟨n, hn⟩ : ∃ n, sp = n + 1 := ⟨sp - 1, by omega⟩
        cases hxx : xs with
        | nil => rw [hxx] at hlx; simp at hlx
        | cons y ys =>
          have hh : xs.take sp = y :: (xs.take sp).drop 1 := by rw [hxx, hn]; simp
          rw [hh, List.mem_cons] at hm
          rcases hm with rfl | hm
          · exact hhead x (by rw [hxx]; rfl)
          · have := hpre x hm
            intro hc
            rw [isIsolate, hc] at this; cases this)
      (fun x hx => hk x (by rw [List.mem_cons, List.mem_append]; exact Or.inr (Or.inr hx))) hisoa.1 hz (pass1_within h1) hi h2 hisoa.2.2 hb (d := 0) (by rw [← h]; exact hroom) (by omega)
    have hdt : (xs.take sp ++ isoScrap z zs :: t).drop sp = isoScrap z zs :: t := by
      conv => lhs; arg 1; rw [← htl]
      rw [List.drop_left]
    have haht : ahead (isoScrap z zs :: t) = ahead t := by rw [ahead]; rfl
    have hroomt : Far 0 t := by
      rw [h] at hroom
      exact (hev _ _ (hroom.open hisoa.2.2)).close hz
    have hat := ahead_le t
    obtain ⟨N2, p', e1, e2, e3, e4, e5⟩ := ih { p1 with sp := (xs.take sp).length } rest2 sh' a2 (by show (xs.take sp).length = sp; exact htl) hsp1
      (by rw [htl] at a3; exact a3) a5 (by show 1 ≤ p1.depth; rw [a4, hrd.depth]; exact hd)
      (by
        have : (xs.take sp ++ isoScrap z zs :: t).take sp = xs.take sp := by
          conv => lhs; arg 1; rw [← htl]
          rw [List.take_left]
        rw [this]; exact hpre)
      (by
        intro x hx
        refine hhead x ?_
        cases hxx : xs with
        | nil => rw [hxx] at hlx; simp at hlx
        | cons y ys =>
          obtain ⟨n, rfl⟩ : ∃ n, sp = n + 1 := ⟨sp - 1, by omega⟩
          rw [hxx] at hx
          simpa using hx)
      (by rw [hdt]; exact hroomt.append (l := [isoScrap z zs]) (by
        intro x hx
        rw [List.mem_singleton] at hx
        subst hx
        rfl))
      (by rw [hdt, haht]; omega)
      (by
        intro he
        rw [hdt, haht]
        exact a7 he)
    have f1 := Run.le_returns (pass1_more E (Nat.le_max_right N1 N2) _ false sh') e1
    refine ⟨max N1 N2 + 2, p', ?_, e2, e3, e4, by rw [e5]; show p1.depth = _; rw [a4, hrd.depth]⟩
    rw [hgo, if_neg hisoa.2.1, if_pos hisoa.1]
    have f2 : subIRS E 1 (max N1 N2) q = .returns ((xs.take sp).length, p1) :=
      Run.le_returns (sub_more E (Nat.le_max_left N1 N2) q) a1
    rw [f2, Run.andThen_returns]
    exact f1

/-- What the steps of pass 1 preserve, in texts with isolates if the flag says so. -/
structure InvI (iso : Bool) (P : List Scrap → List Scrap → Prop) : Prop where
  known : ∀ {pre suf}, P pre suf → ∀ s ∈ suf, s.clz < 28
  number : ∀ {pre s t}, P pre (s :: t) → s.clz = cEN → s.ctx.context = cL
  walk : ∀ {pre s t}, P pre (s :: t) → isIsolate s = false → pick1 s.clz (t[0]?.map (·.clz)) (t[1]?.map (·.clz)) = none → P (pre ++ [s]) t
  back : ∀ {pre x suf}, P (pre ++ [x]) suf → P pre (x :: suf)
  fuse : ∀ {pre s t post rule}, P pre ((s :: t) ++ post) →
    pick1 s.clz ((t ++ post)[0]?.map (·.clz)) ((t ++ post)[1]?.map (·.clz)) = some rule → rule ≠ .W7 →
    rule.lhsLen = (s :: t).length → P pre (Bidi.fuse (target rule) (s :: t) :: post)
  w7 : ∀ {pre s t}, P pre (s :: t) → s.clz = cEN → t[0]?.map (·.clz) ≠ some cET → P pre ({ s with clz := cL } :: t)
  isolate : ∀ {pre a t}, P pre (a :: t) → isIsolate a = true → iso = true ∧ (a.clz = cLRI ∨ a.clz = cRLI ∨ a.clz = cFSI) ∧
    ∃ b body z t' ys zs, t = body ++ z :: t' ∧ z.clz = cPDI ∧ body ≠ [] ∧ Even body ∧ Red b (a :: body) 1 (a :: ys) ∧ (∀ x ∈ a :: ys, Inner x) ∧
      Settles (a :: ys) zs ∧ P pre (isoScrap z zs :: t')

theorem Inv1.noIso {P : List Scrap → List Scrap → Prop} (h : Inv1 P) : InvI false P where
  known := h.known
  number := h.number
  walk hp _ := h.walk hp
  back := h.back
  fuse := h.fuse
  w7 := h.w7
  isolate hp hi := by rw [h.closed hp] at hi; cases hi

theorem InvI.backs {iso : Bool} {P : List Scrap → List Scrap → Prop} (hP : InvI iso P) (k : Nat) : ∀ (pre suf : List Scrap), k ≤ pre.length → P pre suf →
    P (pre.take (pre.length - k)) (pre.drop (pre.length - k) ++ suf) := by
  induction k with
  | zero => intro pre suf _ h; simpa using h
  | succ k ih =>
    intro pre suf hk h
    have hne : pre ≠ [] := by intro h0; rw [h0] at hk; simp at hk
    have e := List.dropLast_concat_getLast hne
    have h1 := hP.back (pre := pre.dropLast) (x := pre.getLast hne) (suf := suf) (by rw [e]; exact h)
    have hl : pre.dropLast.length = pre.length - 1 := List.length_dropLast
    have h2 := ih _ _ (by omega) h1
    rw [hl] at h2
    have e1 : pre.dropLast.take (pre.length - 1 - k) = pre.take (pre.length - (k + 1)) := by
      rw [List.dropLast_eq_take, List.take_take]
      congr 1
      omega
    have e2 : pre.drop (pre.length - (k + 1)) = pre.dropLast.drop (pre.length - 1 - k) ++ [pre.getLast hne] := by
      have e3 : pre.length - (k + 1) = pre.length - 1 - k := by omega
      rw [e3]
      conv => lhs; arg 2; rw [← e]
      rw [List.drop_append_of_le_length (by omega)]
    rw [e1] at h2
    rw [e2, List.append_assoc]
    exact h2

/-- Pass 1 comes to an end. -/
theorem pass1_iso_total {iso : Bool} {P : List Scrap → List Scrap → Prop} (hP : InvI iso P) (first : Scrap) : ∀ (k : Nat) (pre suf : List Scrap),
    3 * (pre.length + suf.length) + (pre ++ suf).countP weakClass + suf.length ≤ k → P pre suf →
    ∃ ys, Red iso (first :: (pre ++ suf)) (pre.length + 1) (first :: ys) ∧ P ys [] := by
  intro k
  induction k using Nat.strongRecOn with
  | ind k ih =>
    intro pre suf hk h
    cases suf with
    | nil => exact ⟨pre, by simpa using Red.done (by simp), h⟩
    | cons s t =>
      have hd : (first :: (pre ++ s :: t)).drop (pre.length + 1) = s :: t := by
        rw [List.drop_succ_cons, List.drop_append_of_le_length (by omega), List.drop_length, List.nil_append]
      have ht : (first :: (pre ++ s :: t)).take (pre.length + 1) = first :: pre := by
        rw [List.take_succ_cons, List.take_append_of_le_length (by omega), List.take_length]
      have hkn := hP.known h
      have hch := choose1_eq s t
      cases hp : pick1 s.clz (t[0]?.map (·.clz)) (t[1]?.map (·.clz)) with
      | none =>
        by_cases his : isIsolate s = true
        · -- an isolate
          obtain ⟨hiso, ha, b, body, z, t', ys, zs, rfl, hz, hb, hev, g1, g2, g3, g4⟩ := hP.isolate h his
          subst hiso
          have hbl : 1 ≤ body.length := List.length_pos_iff.mpr hb
          obtain ⟨out, r1, r2⟩ := ih _ (by
            refine Nat.lt_of_lt_of_le ?_ hk
            have hw : weakClass (isoScrap z zs) = false := rfl
            simp only [List.countP_append, List.countP_cons, List.length_append, List.length_cons, hw, Bool.false_eq_true, if_false]
            omega) pre (isoScrap z zs :: t') (Nat.le_refl _) g4
          refine ⟨out, Red.iso hd hkn ha hz hb hev g1 g2 g3 ?_, r2⟩
          rw [ht]
          simpa using r1
        have his : isIsolate s = false := by simpa using his
        have h1 := hP.walk h his hp
        obtain ⟨ys, r1, r2⟩ := ih _ (by
          simp only [List.length_append, List.length_cons, List.length_nil, List.append_assoc, List.cons_append, List.nil_append] at hk ⊢
          exact Nat.lt_of_lt_of_le (Nat.lt_of_succ_le (by omega)) hk) (pre ++ [s]) t (Nat.le_refl _) h1
        refine ⟨ys, Red.walk hd hkn (hch.trans hp) his ?_, r2⟩
        simpa using r1
      | some rule =>
        have hlen := pick1_len hp
        rcases pick1_rule hp with rfl | ⟨hact, h1, hne⟩
        · -- W7
          have hEN : s.clz = cEN ∧ t[0]?.map (·.clz) ≠ some cET := by
            unfold pick1 at hp
            repeat' split at hp
            all_goals first
              | (cases hp; done)
              | (rename_i g1 g2 g3 g4; exact ⟨g1, g4⟩)
          have hctx := hP.number h hEN.1
          have h1 := hP.w7 h hEN.1 hEN.2
          obtain ⟨ys, r1, r2⟩ := ih _ (by
            simp only [List.length_cons, List.countP_append, List.countP_cons] at hk ⊢
            have w1 : weakClass s = true := by simp [weakClass, hEN.1]
            have w2 : weakClass { s with clz := cL } = false := rfl
            rw [w1] at hk
            rw [w2]
            simp only [if_true] at hk
            exact Nat.lt_of_lt_of_le (Nat.lt_of_succ_le (by simp only [Bool.false_eq_true, if_false]; omega)) hk) pre ({ s with clz := cL } :: t) (Nat.le_refl _) h1
          refine ⟨ys, Red.rule (rhs := [{ s with clz := cL }]) (jmp := 0) hd hkn (hch.trans hp) ?_ ?_ ?_, r2⟩
          · refine ⟨by simp, Nat.le_refl _, by simp [Rule.lhsLen, Rule.lhs], ?_⟩
            intro r
            refine ⟨true, ?_⟩
            simp [Rule.action, Rule.lhsLen, Rule.lhs, hctx]
          · intro x hx
            rw [List.mem_singleton] at hx
            subst hx
            rfl
          · rw [ht]
            have : jump 1 (pre.length + 1) 0 = pre.length + 1 := by unfold jump; omega
            rw [this]
            simpa [Rule.lhsLen, Rule.lhs] using r1
        · -- the others
          obtain ⟨m, post, hm, hml⟩ : ∃ m post, s :: t = m ++ post ∧ m.length = rule.lhsLen :=
            ⟨(s :: t).take rule.lhsLen, (s :: t).drop rule.lhsLen, (List.take_append_drop _ _).symm, by rw [List.length_take]; omega⟩
          obtain ⟨t', rfl⟩ : ∃ t', m = s :: t' := by
            cases m with
            | nil => simp at hml; omega
            | cons a m' => rw [List.cons_append] at hm; injection hm with e1 e2; subst e1; exact ⟨m', rfl⟩
          rw [List.cons_append] at hm
          have hte : t = t' ++ post := (List.cons.inj hm).2
          subst hte
          have h2 := hP.fuse (t := t') (post := post) h hp hne hml.symm
          -- going back
          generalize hb : min (stepBack rule) pre.length = b
          have hbl : b ≤ pre.length := by omega
          have h3 := hP.backs b _ _ hbl h2
          have hcp : (pre.take (pre.length - b) ++ (pre.drop (pre.length - b) ++ Bidi.fuse (target rule) (s :: t') :: post)).countP weakClass =
              pre.countP weakClass + ([Bidi.fuse (target rule) (s :: t')].countP weakClass + post.countP weakClass) := by
            rw [← List.append_assoc, List.take_append_drop, List.countP_append, ← List.singleton_append, List.countP_append]
          have hcp2 : (pre ++ s :: (t' ++ post)).countP weakClass =
              pre.countP weakClass + ((s :: t').countP weakClass + post.countP weakClass) := by
            rw [List.countP_append, ← List.cons_append, List.countP_append]
          obtain ⟨ys, r1, r2⟩ := ih _ (by
            refine Nat.lt_of_lt_of_le ?_ hk
            rw [hcp, hcp2]
            have hf1 : [Bidi.fuse (target rule) (s :: t')].countP weakClass ≤ 1 := List.countP_le_length
            have hb2 : stepBack rule ≤ 2 := by cases rule <;> decide
            simp only [List.length_append, List.length_cons, List.length_take, List.length_drop]
            simp only [List.length_cons] at hml
            by_cases hone : rule.lhsLen = 1
            · obtain ⟨w1, w2, w3⟩ := pick1_single hp hne hone
              have ht0 : t' = [] := List.eq_nil_of_length_eq_zero (by omega)
              subst ht0
              have v1 : [s].countP weakClass = 1 := by
                rcases w1 with w | w | w <;> simp [weakClass, w]
              have v2 : [Bidi.fuse (target rule) [s]].countP weakClass = 0 := by
                rw [w3]; simp [weakClass, Bidi.fuse, cNI, cEN, cES, cET, cCS]
              rw [v1, v2]
              simp only [List.length_nil] at *
              omega
            · omega) _ _ (Nat.le_refl _) h3
          refine ⟨ys, Red.rule (rhs := [Bidi.fuse (target rule) (s :: t')]) (jmp := -(stepBack rule : Int)) hd hkn (hch.trans hp) ?_ ?_ ?_, r2⟩
          · refine ⟨by simp, by simpa using h1, hlen, ?_⟩
            intro r
            refine ⟨false, ?_⟩
            rw [hact, ← List.cons_append, ← hml, List.take_left]
            exact squash_fuse _ _ _ _ _ rfl (by omega)
          · intro x hx
            rw [List.mem_singleton] at hx
            subst hx
            show isIsolate { clz := target rule } = false
            cases rule <;> rfl
          · rw [ht]
            have hj : jump 1 (pre.length + 1) (-(stepBack rule : Int)) = pre.length - b + 1 := by unfold jump; omega
            have hx : (s :: (t' ++ post)).drop rule.lhsLen = post := by
              rw [← List.cons_append, ← hml, List.drop_left]
            rw [hj, hx]
            have hy : first :: pre ++ [Bidi.fuse (target rule) (s :: t')] ++ post =
                first :: (pre.take (pre.length - b) ++ (pre.drop (pre.length - b) ++ Bidi.fuse (target rule) (s :: t') :: post)) := by
              rw [← List.append_assoc, List.take_append_drop]
              simp
            rw [hy]
            have hz : (pre.take (pre.length - b)).length = pre.length - b := by simp
            rw [hz] at r1
            exact r1


end Uax.Bidi

