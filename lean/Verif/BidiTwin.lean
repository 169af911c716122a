import Verif.BidiIsoText

/-
Two lists of scraps which differ in their positions by a constant are resolved
alike: pass 1 and pass 2 look at the classes and the embedding directions only.
-/
namespace Uax.Bidi

/-- What the parser makes use of, with positions moved by `d`. -/
def keyAt (d : Nat) (s : Scrap) : Class × Nat × Nat × Class := (s.clz, s.l + d, s.r + d, s.e)

theorem keys_class {d : Nat} {xs xs' : List Scrap} (h : xs.map (keyAt d) = xs'.map (keyAt 0)) : xs.map (·.clz) = xs'.map (·.clz) := by
  have := congrArg (List.map Prod.fst) h
  simpa [Function.comp_def, keyAt] using this

theorem keys_length {d : Nat} {xs xs' : List Scrap} (h : xs.map (keyAt d) = xs'.map (keyAt 0)) : xs.length = xs'.length := by
  simpa using congrArg List.length h

theorem keys_drop {d : Nat} {xs xs' : List Scrap} (h : xs.map (keyAt d) = xs'.map (keyAt 0)) (n : Nat) :
    (xs.drop n).map (keyAt d) = (xs'.drop n).map (keyAt 0) := by
  rw [List.map_drop, List.map_drop, h]

theorem keys_take {d : Nat} {xs xs' : List Scrap} (h : xs.map (keyAt d) = xs'.map (keyAt 0)) (n : Nat) :
    (xs.take n).map (keyAt d) = (xs'.take n).map (keyAt 0) := by
  rw [List.map_take, List.map_take, h]

theorem keys_append {d : Nat} {xs xs' ys ys' : List Scrap} (h : xs.map (keyAt d) = xs'.map (keyAt 0)) (h' : ys.map (keyAt d) = ys'.map (keyAt 0)) :
    (xs ++ ys).map (keyAt d) = (xs' ++ ys').map (keyAt 0) := by
  rw [List.map_append, List.map_append, h, h']

theorem key_fuse {d : Nat} {m m' : List Scrap} (h : m.map (keyAt d) = m'.map (keyAt 0)) (hne : m ≠ []) (c : Class) :
    keyAt d (fuse c m) = keyAt 0 (fuse c m') := by
  cases m with
  | nil => exact absurd rfl hne
  | cons a m =>
    cases m' with
    | nil => cases h
    | cons a' m' =>
      have hl : ((a :: m).getLast?.map (keyAt d)) = ((a' :: m').getLast?.map (keyAt 0)) := by
        rw [← List.getLast?_map, ← List.getLast?_map, h]
      rw [List.map_cons, List.map_cons, List.cons.injEq] at h
      obtain ⟨h1, -⟩ := h
      simp only [keyAt, Prod.mk.injEq] at h1
      have hx : ∀ (x : Scrap) (l : List Scrap), ∃ y, (x :: l).getLast? = some y := fun x l => ⟨_, List.getLast?_eq_some_getLast (by simp)⟩
      obtain ⟨y, hy⟩ := hx a m
      obtain ⟨y', hy'⟩ := hx a' m'
      rw [hy, hy'] at hl
      simp only [Option.map_some, Option.some.injEq, keyAt, Prod.mk.injEq] at hl
      simp only [keyAt, fuse, hy, hy', Option.getD_some, Prod.mk.injEq, true_and]
      exact ⟨h1.2.1, hl.2.2.1, h1.2.2.2⟩

theorem acts_unique {rule : Rule} {m rhs rhs1 : List Scrap} {jmp jmp1 : Int} {b : Bool} (h : Acts rule m rhs jmp) (r : List Scrap)
    (h1 : rule.action (m.take rule.lhsLen ++ r) = some (rhs1, jmp1, b)) : rhs = rhs1 ∧ jmp = jmp1 := by
  obtain ⟨b', hb⟩ := h.2.2.2 r
  rw [h1] at hb
  simp only [Option.some.injEq, Prod.mk.injEq] at hb
  exact ⟨hb.1.symm, hb.2.1.symm⟩

/-- What a rule of pass 1 makes. -/
theorem acts_pass1 {rule : Rule} {s : Scrap} {t rhs : List Scrap} {jmp : Int} (hc : choose1 ((s :: t).map (·.clz)) = some rule)
    (h : Acts rule (s :: t) rhs jmp) :
    ∃ c, (rule = .W7 ∧ rhs = [{ s with clz := cL }] ∧ jmp = 0) ∨
      (rule ≠ .W7 ∧ c = target rule ∧ rhs = [fuse c ((s :: t).take rule.lhsLen)] ∧ jmp = -(stepBack rule : Int)) := by
  rw [choose1_eq] at hc
  refine ⟨target rule, ?_⟩
  rcases pick1_rule hc with rfl | ⟨h1, h2, h3⟩
  · left
    have e : ∀ r : List Scrap, (s :: t).take Rule.W7.lhsLen ++ r = s :: r := fun r => by simp [Rule.lhsLen, Rule.lhs]
    have a0 := h.2.2.2 []
    have a1 := h.2.2.2 [s]
    rw [e] at a0 a1
    by_cases hl : s.ctx.context = cL
    · obtain ⟨b, hb⟩ := a0
      simp only [Rule.action, hl, if_true, Option.some.injEq, Prod.mk.injEq] at hb
      exact ⟨rfl, hb.1.symm, hb.2.1.symm⟩
    · obtain ⟨b, hb⟩ := a0
      obtain ⟨b', hb'⟩ := a1
      simp only [Rule.action, hl, if_false, Option.some.injEq, Prod.mk.injEq] at hb hb'
      rw [← hb.1] at hb'
      simp at hb'
  · right
    have hlen := h.2.2.1
    have := squash_fuse (target rule) rule.lhsLen (-(stepBack rule : Int)) ((s :: t).take rule.lhsLen) [] (by rw [List.length_take]; omega) h2
    rw [← h1] at this
    obtain ⟨e1, e2⟩ := acts_unique h [] this
    exact ⟨h3, rfl, e1, e2⟩

/-- Pass 1 treats both alike. -/
theorem red_twin {d : Nat} {a a' : Scrap} {iso : Bool} {l out : List Scrap} {sp : Nat} (hr : Red iso l sp out) : iso = false →
    ∀ (xs xs' out' : List Scrap) (k : Nat), l = a :: xs → sp = k + 1 → Red false (a' :: xs') (k + 1) out' → xs.map (keyAt d) = xs'.map (keyAt 0) →
    ∃ ys ys', out = a :: ys ∧ out' = a' :: ys' ∧ ys.map (keyAt d) = ys'.map (keyAt 0) := by
  induction hr with
  | done h =>
    rename_i iso l sp
    rintro - xs xs' out' k rfl rfl hr' hk
    have hl := keys_length hk
    rw [List.length_cons] at h
    generalize hl' : a' :: xs' = l' at hr'
    generalize hsp : k + 1 = sp' at hr'
    have hnil : l'.drop sp' = [] := by
      rw [← hl', ← hsp, List.drop_succ_cons]
      exact List.drop_eq_nil_of_le (by omega)
    cases hr' with
    | done _ => exact ⟨xs, xs', rfl, hl'.symm, hk⟩
    | walk h' => rw [hnil] at h'; cases h'
    | rule h' => rw [hnil] at h'; cases h'
  | walk h hk hc hi hr ih =>
    rename_i iso l ys sp s t
    rintro hiso xs xs' out' k rfl rfl hr' hkey
    rw [List.drop_succ_cons] at h
    have hd := keys_drop hkey k
    rw [h] at hd
    have hcl := keys_class hd
    generalize hl' : a' :: xs' = l' at hr'
    generalize hsp : k + 1 = sp' at hr'
    have hdr : l'.drop sp' = xs'.drop k := by rw [← hl', ← hsp, List.drop_succ_cons]
    cases hr' with
    | done h' =>
      rw [← hdr, List.drop_eq_nil_of_le (by omega)] at hcl
      cases hcl
    | walk h' hk' hc' hi' hr' =>
      rw [← hl', ← hsp] at hr'
      exact ih hiso xs xs' out' (k + 1) rfl rfl hr' hkey
    | rule h' hk' hc' hl'' ho' hr' =>
      rw [hdr] at h'
      rw [h', ] at hcl
      rw [← hcl, hc] at hc'
      cases hc'
  | rule h hk hc hl ho hr ih =>
    rename_i iso l ys sp s t rhs jmp rule
    rintro hiso xs xs' out' k rfl rfl hr' hkey
    rw [List.drop_succ_cons] at h
    have hd := keys_drop hkey k
    rw [h] at hd
    have hcl := keys_class hd
    generalize hl' : a' :: xs' = l' at hr'
    generalize hsp : k + 1 = sp' at hr'
    have hdr : l'.drop sp' = xs'.drop k := by rw [← hl', ← hsp, List.drop_succ_cons]
    cases hr' with
    | done h' =>
      rw [← hdr, List.drop_eq_nil_of_le (by omega)] at hcl
      cases hcl
    | walk h' hk' hc' hi' hr' =>
      rw [hdr] at h'
      rw [h'] at hcl
      rw [← hcl, hc] at hc'
      cases hc'
    | rule h' hk' hc' hact' ho' hr' =>
      rename_i s' t' rhs' jmp' rule'
      rw [hdr] at h'
      rw [h'] at hcl hd
      rw [← hcl, hc, Option.some.injEq] at hc'
      subst hc'
      have hc2 := hc
      rw [hcl] at hc2
      have hrhs : rhs.map (keyAt d) = rhs'.map (keyAt 0) ∧ jmp = jmp' := by
        obtain ⟨c, g⟩ := acts_pass1 hc hl
        obtain ⟨c', g'⟩ := acts_pass1 hc2 hact'
        rcases g with ⟨g1, g2, g3⟩ | ⟨g1, g2, g3, g4⟩
        · rcases g' with ⟨-, k2, k3⟩ | ⟨k1, -⟩
          · rw [g2, k2, g3, k3]
            rw [List.map_cons, List.map_cons, List.cons.injEq] at hd
            have := hd.1
            simp only [keyAt, Prod.mk.injEq] at this
            refine ⟨?_, rfl⟩
            simp only [List.map_cons, List.map_nil, keyAt, List.cons.injEq, Prod.mk.injEq, and_true, true_and]
            exact this.2
          · exact absurd g1 k1
        · rcases g' with ⟨k1, -⟩ | ⟨-, k2, k3, k4⟩
          · exact absurd k1 g1
          · rw [g3, k3, g4, k4, g2, k2]
            refine ⟨?_, rfl⟩
            rw [List.map_cons, List.map_cons, List.map_nil, List.map_nil]
            rw [choose1_eq] at hc
            rcases pick1_rule hc with rfl | ⟨-, q2, -⟩
            · exact absurd rfl g1
            rw [key_fuse (keys_take hd rule.lhsLen) (by
              intro e
              have := congrArg List.length e
              rw [List.length_take, List.length_cons, List.length_nil] at this
              omega)]
      have hj : ∃ k2, jump 1 (k + 1) jmp = k2 + 1 := ⟨jump 1 (k + 1) jmp - 1, by unfold jump; omega⟩
      obtain ⟨k2, hk2⟩ := hj
      have e1 : (a :: xs).take (k + 1) ++ rhs ++ (s :: t).drop rule.lhsLen = a :: (xs.take k ++ rhs ++ (s :: t).drop rule.lhsLen) := by simp
      rw [← hl', ← hsp, ← hrhs.2, hk2] at hr'
      have e2 : (a' :: xs').take (k + 1) ++ rhs' ++ (s' :: t').drop rule.lhsLen = a' :: (xs'.take k ++ rhs' ++ (s' :: t').drop rule.lhsLen) := by simp
      rw [e2] at hr'
      exact ih hiso _ _ out' k2 e1 hk2 hr' (keys_append (keys_append (keys_take hkey k) hrhs.1) (keys_drop hd _))
  | iso => intro h; cases h

theorem inner_key {d : Nat} {xs xs' : List Scrap} (h : xs.map (keyAt d) = xs'.map (keyAt 0)) (hi : ∀ x ∈ xs, Inner x) : ∀ x ∈ xs', Inner x := by
  intro x hx
  have : keyAt 0 x ∈ xs.map (keyAt d) := by rw [h]; exact List.mem_map_of_mem hx
  rw [List.mem_map] at this
  obtain ⟨y, hy, e⟩ := this
  simp only [keyAt, Prod.mk.injEq] at e
  have := hi y hy
  unfold Inner isBracket at this ⊢
  rw [e.1, e.2.2.2] at this
  exact this

/-- What a rule of pass 2 makes. -/
theorem acts_pass2 {d : Nat} {rule : Rule} {s s' : Scrap} {t t' : List Scrap} (hn : ∀ x ∈ s :: t, Inner x)
    (hk : (s :: t).map (keyAt d) = (s' :: t').map (keyAt 0)) (hc : choose2 ((s :: t).map (·.clz)) = some rule) :
    ∃ rhs rhs' jmp, Acts rule (s :: t) rhs jmp ∧ Acts rule (s' :: t') rhs' jmp ∧ -1 ≤ jmp ∧ (∀ x ∈ rhs, Inner x) ∧
      rhs.map (keyAt d) = rhs'.map (keyAt 0) := by
  have hn' := inner_key hk hn
  have hc' := hc
  rw [keys_class hk] at hc'
  rw [choose2_eq] at hc hc'
  obtain ⟨rhs, jmp, a1, a2, a3⟩ := pick2_acts hn hc
  obtain ⟨rhs', jmp', b1, b2, b3⟩ := pick2_acts hn' hc'
  have hks : keyAt d s = keyAt 0 s' := (List.cons.inj hk).1
  simp only [keyAt, Prod.mk.injEq] at hks
  have key : ∀ rhs rhs' jmp jmp', Acts rule (s :: t) rhs jmp → Acts rule (s' :: t') rhs' jmp' → jmp = jmp' ∧ rhs.map (keyAt d) = rhs'.map (keyAt 0) := by
    intro rhs rhs' jmp jmp' a1 b1
    have act : ∀ (x : Scrap) (y r : List Scrap) (j : Int), Acts rule (x :: y) r j → rule.action (x :: y) = some (r, j, ((rule.action (x :: y)).map (·.2.2)).getD false) := by
      intro x y r j h
      obtain ⟨b, hb⟩ := h.2.2.2 ((x :: y).drop rule.lhsLen)
      rw [List.take_append_drop] at hb
      rw [hb]
      rfl
    have u1 := act _ _ _ _ a1
    have u2 := act _ _ _ _ b1
    have cls := keys_class hk
    rcases pick2_some (fun x hx => (hn x hx).2.1) hc with ⟨c, b, e, post, h0, h1, rfl, h2, h3, h4, h5⟩ |
      ⟨c, b, post, h0, h1, rfl, h2, h4, h5⟩ | ⟨b, e, post, h1, rfl, h2, h3, h4, h5⟩ | ⟨h1, h4, h5⟩
    · rcases pick2_some (fun x hx => (hn' x hx).2.1) hc' with ⟨c', b', e', post', h0', h1', rfl, h2', h3', h4', h5'⟩ |
        ⟨c', b', post', h0', h1', rfl, h2', h4', h5'⟩ | ⟨b', e', post', h1', rfl, h2', h3', h4', h5'⟩ | ⟨h1', h4', h5'⟩
      · rw [h4] at u1
        rw [h4'] at u2
        have v1 := squash_fuse c 3 0 [s, b, e] post rfl (by omega)
        have v2 := squash_fuse c' 3 0 [s', b', e'] post' rfl (by omega)
        have hcc : c = c' := by rw [← h1, ← h1']; exact hks.1
        subst hcc
        simp only [List.cons_append, List.nil_append] at v1 v2
        rw [u1] at v1
        rw [u2] at v2
        simp only [Option.some.injEq, Prod.mk.injEq] at v1 v2
        rw [v1.1, v1.2.1, v2.1, v2.2.1]
        refine ⟨rfl, ?_⟩
        rw [List.map_cons, List.map_cons, List.map_nil, List.map_nil]
        exact congrArg (· :: []) (key_fuse (m := [s, b, e]) (m' := [s', b', e']) (keys_take hk 3) (by simp) c)
      · rw [h5] at h5'; cases h5'
      · rw [hks.1, h1'] at h1
        have : c = cAN := by rw [← h3, ← h3']; exact congrArg (fun l => l[2]?.getD 0) cls
        rw [this] at h0; exact absurd h0 (by decide)
      · rw [h5] at h5'; cases h5'
    · rcases pick2_some (fun x hx => (hn' x hx).2.1) hc' with ⟨c', b', e', post', h0', h1', rfl, h2', h3', h4', h5'⟩ |
        ⟨c', b', post', h0', h1', rfl, h2', h4', h5'⟩ | ⟨b', e', post', h1', rfl, h2', h3', h4', h5'⟩ | ⟨h1', h4', h5'⟩
      · rw [h5] at h5'; cases h5'
      · rw [h4] at u1
        rw [h4'] at u2
        have v1 := squash_fuse c 2 0 [s, b] post rfl (by omega)
        have v2 := squash_fuse c' 2 0 [s', b'] post' rfl (by omega)
        have hcc : c = c' := by rw [← h1, ← h1']; exact hks.1
        subst hcc
        simp only [List.cons_append, List.nil_append] at v1 v2
        rw [u1] at v1
        rw [u2] at v2
        simp only [Option.some.injEq, Prod.mk.injEq] at v1 v2
        rw [v1.1, v1.2.1, v2.1, v2.2.1]
        refine ⟨rfl, ?_⟩
        rw [List.map_cons, List.map_cons, List.map_nil, List.map_nil]
        exact congrArg (· :: []) (key_fuse (m := [s, b]) (m' := [s', b']) (keys_take hk 2) (by simp) c)
      · rw [h5] at h5'; cases h5'
      · rw [h5] at h5'; cases h5'
    · rcases pick2_some (fun x hx => (hn' x hx).2.1) hc' with ⟨c', b', e', post', h0', h1', rfl, h2', h3', h4', h5'⟩ |
        ⟨c', b', post', h0', h1', rfl, h2', h4', h5'⟩ | ⟨b', e', post', h1', rfl, h2', h3', h4', h5'⟩ | ⟨h1', h4', h5'⟩
      · have : c' = cAN := by rw [← h3, ← h3']; exact (congrArg (fun l => l[2]?.getD 0) cls).symm
        rw [this] at h0'; exact absurd h0' (by decide)
      · rw [h5] at h5'; cases h5'
      · rw [h4] at u1
        rw [h4'] at u2
        simp only [Option.some.injEq, Prod.mk.injEq] at u1 u2
        rw [← u1.1, ← u1.2.1, ← u2.1, ← u2.2.1]
        refine ⟨rfl, ?_⟩
        have hb := (List.cons.inj (List.cons.inj hk).2).1
        simp only [keyAt, Prod.mk.injEq] at hb
        simp only [List.map_cons, List.map_nil, keyAt, List.cons.injEq, Prod.mk.injEq, and_true, true_and]
        exact ⟨hks, hb.2⟩
      · rw [h5] at h5'; cases h5'
    · rcases pick2_some (fun x hx => (hn' x hx).2.1) hc' with ⟨c', b', e', post', h0', h1', rfl, h2', h3', h4', h5'⟩ |
        ⟨c', b', post', h0', h1', rfl, h2', h4', h5'⟩ | ⟨b', e', post', h1', rfl, h2', h3', h4', h5'⟩ | ⟨h1', h4', h5'⟩
      · rw [h5] at h5'; cases h5'
      · rw [h5] at h5'; cases h5'
      · rw [h5] at h5'; cases h5'
      · rw [h4] at u1
        rw [h4'] at u2
        simp only [Option.some.injEq, Prod.mk.injEq] at u1 u2
        rw [← u1.1, ← u1.2.1, ← u2.1, ← u2.2.1]
        refine ⟨rfl, ?_⟩
        simp only [List.map_cons, List.map_nil, keyAt, List.cons.injEq, Prod.mk.injEq, and_true]
        exact ⟨hks.2.2.2, hks.2⟩
  obtain ⟨k1, k2⟩ := key _ _ _ _ a1 b1
  subst k1
  exact ⟨rhs, rhs', jmp, a1, b1, a2, a3, k2⟩

/-- Pass 2, without brackets, treats both alike, whatever the surroundings are. -/
theorem pass2_twin {σ : Type} {E : Env σ} {d : Nat} {a a' : Scrap} (ha : isIsolate a = true) (hia : Inner a) (haa : a'.clz = a.clz) (hae : a'.e = a.e) :
    ∀ (N : Nat) (q q1 : Parser Unit) (p : Parser σ) (xs xs' : List Scrap), q.stack = a :: xs → p.stack = a' :: xs' → p.sp = q.sp → q.sp ≤ xs.length + 1 →
    (∀ x ∈ xs, Inner x) → xs.map (keyAt d) = xs'.map (keyAt 0) → pass2Loop dead 0 N q = .returns q1 →
    ∃ p1 ys ys', pass2Loop E 0 N p = .returns p1 ∧ q1.stack = a :: ys ∧ p1.stack = a' :: ys' ∧ ys.map (keyAt d) = ys'.map (keyAt 0) ∧
      p1.eof = p.eof ∧ p1.depth = p.depth ∧ p1.env = p.env := by
  have hia' : Inner a' := by
    unfold Inner isBracket at hia ⊢
    rw [haa, hae]; exact hia
  intro N
  induction N with
  | zero => intro q q1 p xs xs' _ _ _ _ _ _ h; cases h
  | succ N ih =>
    intro q q1 p xs xs' hq hp hsp hle hin hkey hrun
    have hin' := inner_key hkey hin
    have hlen := keys_length hkey
    have hall : ∀ x ∈ a :: xs, Inner x := by
      intro x hx
      rw [List.mem_cons] at hx
      rcases hx with rfl | hx
      · exact hia
      · exact hin x hx
    have hall' : ∀ x ∈ a' :: xs', Inner x := by
      intro x hx
      rw [List.mem_cons] at hx
      rcases hx with rfl | hx
      · exact hia'
      · exact hin' x hx
    have hq' : q.stack = q.stack.take q.sp ++ q.stack.drop q.sp := (List.take_append_drop _ _).symm
    have hp' : p.stack = p.stack.take q.sp ++ p.stack.drop q.sp := (List.take_append_drop _ _).symm
    have hlq : q.sp = (q.stack.take q.sp).length := by rw [List.length_take, hq, List.length_cons]; omega
    have hlp : p.sp = (p.stack.take q.sp).length := by rw [List.length_take, hp, List.length_cons, hsp]; omega
    have hlast : ∀ s ∈ (q.stack.take q.sp).getLast?, s.clz ≠ cPDI := fun s hs =>
      (hall s (by rw [← hq]; exact List.mem_of_mem_take (List.mem_of_getLast? hs))).2.2.1
    have hlast' : ∀ s ∈ (p.stack.take q.sp).getLast?, s.clz ≠ cPDI := fun s hs =>
      (hall' s (by rw [← hp]; exact List.mem_of_mem_take (List.mem_of_getLast? hs))).2.2.1
    cases hd : q.stack.drop q.sp with
    | nil =>
      have hge : q.sp = xs.length + 1 := by
        have := congrArg List.length hd
        rw [List.length_drop, hq, List.length_cons, List.length_nil] at this
        omega
      rw [hd] at hq'
      rw [pass2Loop, passed_false hq' hlq hlast, if_neg (by simp), List.getElem?_eq_none (by rw [hq, List.length_cons]; omega)] at hrun
      injection hrun with hrun
      subst hrun
      refine ⟨p, xs, xs', ?_, hq, hp, hkey, rfl, rfl, rfl⟩
      rw [pass2Loop, passed_false hp' hlp hlast', if_neg (by simp), List.getElem?_eq_none (by rw [hp, List.length_cons]; omega)]
    | cons s t =>
      have hlt : q.sp < xs.length + 1 := by
        have := congrArg List.length hd
        rw [List.length_drop, hq, List.length_cons, List.length_cons] at this
        omega
      obtain ⟨s', t', hd'⟩ : ∃ s' t', p.stack.drop q.sp = s' :: t' := by
        cases hx : p.stack.drop q.sp with
        | nil =>
          have := congrArg List.length hx
          rw [List.length_drop, hp, List.length_cons, List.length_nil] at this
          omega
        | cons s' t' => exact ⟨s', t', rfl⟩
      have hinner : ∀ x ∈ s :: t, Inner x := fun x hx => hall x (by rw [← hq]; rw [← hd] at hx; exact List.mem_of_mem_drop hx)
      have hinner' : ∀ x ∈ s' :: t', Inner x := fun x hx => hall' x (by rw [← hp]; rw [← hd'] at hx; exact List.mem_of_mem_drop hx)
      rw [hd] at hq'
      rw [hd'] at hp'
      rw [pass2_round hq' hlq hlast (hinner s (by simp)).2.2.2.1 (fun x hx => (hinner x hx).1)] at hrun
      have hstep := pass2_round (E := E) (st := 0) (p := p) hp' hlp hlast' (hinner' s' (by simp)).2.2.2.1 (fun x hx => (hinner' x hx).1) N
      have hcls : (s :: t).map (·.clz) = (s' :: t').map (·.clz) := by
        rw [← hd, ← hd', List.map_drop, List.map_drop, hq, hp, List.map_cons, List.map_cons, haa, keys_class hkey]
      rw [← hcls] at hstep
      cases hc : choose2 ((s :: t).map (·.clz)) with
      | none =>
        rw [hc] at hrun hstep
        dsimp only at hrun hstep
        rw [hstep]
        exact ih { q with sp := q.sp + 1 } q1 { p with sp := p.sp + 1 } xs xs' hq hp (by show p.sp + 1 = q.sp + 1; omega) (by show q.sp + 1 ≤ _; omega)
          hin hkey hrun
      | some rule =>
        rw [hc] at hrun hstep
        dsimp only at hrun hstep
        -- a rule is not applied to the initiator
        obtain ⟨k, hk⟩ : ∃ k, q.sp = k + 1 := by
          cases hz : q.sp with
          | zero =>
            exfalso
            rw [hz, List.drop_zero, hq] at hd
            injection hd with e1 e2
            subst e1
            rw [choose2_eq] at hc
            unfold isIsolate at ha
            simp only [Bool.or_eq_true, beq_iff_eq] at ha
            rcases ha with ((h2 | h2) | h2) | h2 <;> (rw [h2] at hc; cases hc)
          | succ k => exact ⟨k, rfl⟩
        have hdx : xs.drop k = s :: t := by rw [← hd, hq, hk, List.drop_succ_cons]
        have hdx' : xs'.drop k = s' :: t' := by rw [← hd', hp, hk, List.drop_succ_cons]
        have hks : (s :: t).map (keyAt d) = (s' :: t').map (keyAt 0) := by rw [← hdx, ← hdx']; exact keys_drop hkey k
        obtain ⟨rhs, rhs', jmp, a1, a2, a3, a4, a5⟩ := acts_pass2 hinner hks hc
        obtain ⟨b1, hb1⟩ := a1.2.2.2 ((s :: t).drop rule.lhsLen)
        rw [List.take_append_drop] at hb1
        obtain ⟨b2, hb2⟩ := a2.2.2.2 ((s' :: t').drop rule.lhsLen)
        rw [List.take_append_drop] at hb2
        rw [hb1] at hrun
        rw [hb2] at hstep
        dsimp only at hrun hstep
        have hl1 := a1.2.2.1
        have hl2 := a2.2.2.1
        have hlx : xs.length = k + (s :: t).length := by rw [← hdx, List.length_drop]; omega
        rw [reduce_eq q rule.lhsLen rhs 0 a1.2.1 (by rw [hq, hk, List.length_cons]; omega) (Nat.zero_le _), Run.andThen_returns] at hrun
        rw [reduce_eq p rule.lhsLen rhs' 0 a2.2.1 (by
          rw [hp, hsp, hk, List.length_cons]
          have := congrArg List.length hks
          simp only [List.length_map] at this
          omega) (Nat.zero_le _), Run.andThen_returns] at hstep
        have e1 : q.stack.take q.sp ++ rhs ++ q.stack.drop (q.sp + rule.lhsLen) = a :: (xs.take k ++ rhs ++ (s :: t).drop rule.lhsLen) := by
          rw [← hdx, List.drop_drop, hq, hk, List.take_succ_cons, show k + 1 + rule.lhsLen = (k + rule.lhsLen) + 1 by omega, List.drop_succ_cons]
          simp
        have e2 : p.stack.take p.sp ++ rhs' ++ p.stack.drop (p.sp + rule.lhsLen) = a' :: (xs'.take k ++ rhs' ++ (s' :: t').drop rule.lhsLen) := by
          rw [← hdx', List.drop_drop, hp, hsp, hk, List.take_succ_cons, show k + 1 + rule.lhsLen = (k + rule.lhsLen) + 1 by omega, List.drop_succ_cons]
          simp
        rw [e1] at hrun
        rw [e2] at hstep
        rw [hstep]
        have hj := a1.1
        refine ih { q with stack := a :: (xs.take k ++ rhs ++ (s :: t).drop rule.lhsLen), sp := jump 0 q.sp jmp } q1
          { p with stack := a' :: (xs'.take k ++ rhs' ++ (s' :: t').drop rule.lhsLen), sp := jump 0 p.sp jmp } _ _ rfl rfl (by show jump 0 p.sp jmp = jump 0 q.sp jmp; rw [hsp])
          ?_ ?_ (keys_append (keys_append (keys_take hkey k) a5) (keys_drop hks _)) hrun
        · show jump 0 q.sp jmp ≤ _
          simp only [List.length_append, List.length_take]
          unfold jump
          omega
        · intro x hx
          rw [List.mem_append, List.mem_append] at hx
          rcases hx with (hx | hx) | hx
          · exact hin x (List.mem_of_mem_take hx)
          · exact a4 x hx
          · exact hinner x (List.mem_of_mem_drop hx)

end Uax.Bidi
