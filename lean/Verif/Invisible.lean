import Verif.SpecInvisible
import Verif.Props.BidiOneDirection

/-
What is displayed for a text that is one run, and texts without boundary neutrals.
-/
namespace Uax.Bidi
open Spec

theorem ascending_ext : ∀ (a b : List Nat), a.Pairwise (· < ·) → b.Pairwise (· < ·) → (∀ x, x ∈ a ↔ x ∈ b) → a = b
  | [], [], _, _, _ => rfl
  | [], y :: b, _, _, h => absurd ((h y).mpr (by simp)) (by simp)
  | x :: a, [], _, _, h => absurd ((h x).mp (by simp)) (by simp)
  | x :: a, y :: b, ha, hb, h => by
    rw [List.pairwise_cons] at ha hb
    have h1 := (h x).mp (by simp)
    have h2 := (h y).mpr (by simp)
    rw [List.mem_cons] at h1 h2
    have e : x = y := by
      rcases h1 with h1 | h1
      · exact h1
      · rcases h2 with h2 | h2
        · exact h2.symm
        · have := hb.1 x h1
          have := ha.1 y h2
          omega
    subst e
    rw [ascending_ext a b ha.2 hb.2 fun z => ?_]
    have hz := h z
    rw [List.mem_cons, List.mem_cons] at hz
    constructor
    · intro hm
      rcases hz.mp (Or.inr hm) with e | e
      · have := ha.1 z hm
        omega
      · exact e
    · intro hm
      rcases hz.mpr (Or.inr hm) with e | e
      · have := hb.1 z hm
        omega
      · exact e

theorem starts_ge : ∀ (t : List Char) (n : Nat), ∀ p ∈ starts n t, n ≤ p ∧ p < n + (utf8 t).length
  | [], _, p, hp => by cases hp
  | c :: t, n, p, hp => by
    have hc := utf8_pos c
    rw [utf8_len]
    rcases List.mem_cons.mp hp with rfl | hp
    · omega
    · have := starts_ge t _ p hp
      omega

theorem starts_ascending : ∀ (t : List Char) (n : Nat), (starts n t).Pairwise (· < ·)
  | [], _ => .nil
  | c :: t, n => by
    refine List.pairwise_cons.mpr ⟨fun p hp => ?_, starts_ascending t _⟩
    have := starts_ge t _ p hp
    have := utf8_pos c
    omega

theorem within_range {st : List Nat} (hs : st.Pairwise (· < ·)) (l r : Nat) : within l r st = (List.range' l (r - l)).filter (· ∈ st) := by
  refine ascending_ext _ _ (hs.filter _) ((List.pairwise_lt_range' (s := l) (n := r - l)).filter _) fun x => ?_
  unfold within
  simp only [List.mem_filter, decide_eq_true_eq, List.mem_range'_1]
  constructor
  · rintro ⟨h1, h2, h3⟩
    exact ⟨by omega, h1⟩
  · rintro ⟨h1, h2⟩
    exact ⟨h2, by omega⟩

theorem scraps_shown {t : List Char} {ss : List Scrap} (h : ss.flatMap (fun s => List.range' s.l (s.r - s.l)) = List.range (utf8 t).length) :
    ss.flatMap (fun s => within s.l s.r (starts 0 t)) = starts 0 t := by
  have e : (fun s : Scrap => within s.l s.r (starts 0 t)) = fun s => (List.range' s.l (s.r - s.l)).filter (· ∈ starts 0 t) :=
    funext fun s => within_range (starts_ascending t 0) s.l s.r
  rw [e, ← List.filter_flatMap, h]
  refine ascending_ext _ _ (List.pairwise_lt_range.filter _) (starts_ascending t 0) fun x => ?_
  simp only [List.mem_filter, decide_eq_true_eq, List.mem_range]
  constructor
  · exact fun h => h.2
  · intro hx
    have := starts_ge t 0 x hx
    exact ⟨by omega, hx⟩

theorem filterMap_same {α β : Type} {f g : α → Option β} : ∀ {l : List α}, (∀ x ∈ l, f x = g x) → l.filterMap f = l.filterMap g
  | [], _ => rfl
  | x :: l, h => by
    rw [List.filterMap_cons, List.filterMap_cons, h x (by simp), filterMap_same fun y hy => h y (by simp [hy])]

theorem chars_at : ∀ (t : List Char) (n : Nat), (starts n t).filterMap (fun p => (((starts n t).zip t).find? fun x => decide (x.1 = p)).map (·.2)) = t
  | [], _ => rfl
  | c :: t, n => by
    have ih := chars_at t (n + (utf8 [c]).length)
    have hz : (starts n (c :: t)).zip (c :: t) = (n, c) :: (starts (n + (utf8 [c]).length) t).zip t := rfl
    rw [hz]
    show List.filterMap _ (n :: starts (n + (utf8 [c]).length) t) = _
    rw [List.filterMap_cons_some (b := c) (by rw [List.find?_cons_of_pos (by simp)]; rfl)]
    rw [List.cons.injEq]
    refine ⟨rfl, ?_⟩
    refine Eq.trans ?_ ih
    refine filterMap_same fun p hp => ?_
    have := (starts_ge t _ p hp).1
    have := utf8_pos c
    show ((((n, c) :: (starts (n + (utf8 [c]).length) t).zip t).find? fun x => decide (x.1 = p)).map (·.2)) = _
    rw [List.find?_cons_of_neg (by simp; omega)]

theorem displayed_ltr {t : List Char} {r : VRun} (hd : r.dir = .ltr) (h : r.scraps.flatMap (fun s => List.range' s.l (s.r - s.l)) = List.range (utf8 t).length) :
    displayed t .ltr [r] = t := by
  unfold displayed shown
  rw [if_pos rfl, List.flatMap_cons, List.flatMap_nil, List.append_nil, hd]
  rw [show (shownSegment (starts 0 t) Dir.ltr) = fun s => within s.l s.r (starts 0 t) from funext fun s => if_pos rfl, scraps_shown h]
  exact chars_at t 0

theorem displayed_rtl {t : List Char} {r : VRun} (hd : r.dir = .rtl) (h : r.scraps.flatMap (fun s => List.range' s.l (s.r - s.l)) = List.range (utf8 t).length) :
    displayed t .rtl [r] = t.reverse := by
  unfold displayed shown
  rw [if_neg (by decide), List.reverse_singleton, List.flatMap_cons, List.flatMap_nil, List.append_nil, hd]
  rw [show (shownSegment (starts 0 t) Dir.rtl) = List.reverse ∘ fun s => within s.l s.r (starts 0 t) from funext fun s => if_neg (by decide), ← List.reverse_flatMap, scraps_shown h,
    List.filterMap_reverse]
  exact congrArg _ (chars_at t 0)

theorem takeWhile_filter {α : Type} {p q : α → Bool} (h : ∀ x, q x = false → p x = true) : ∀ l : List α, (l.filter q).takeWhile p = (l.takeWhile p).filter q
  | [] => rfl
  | x :: l => by
    have ih := takeWhile_filter h l
    cases hq : q x with
    | false => rw [List.filter_cons_of_neg (by simp [hq]), List.takeWhile_cons_of_pos (h x hq), List.filter_cons_of_neg (by simp [hq]), ih]
    | true =>
      rw [List.filter_cons_of_pos hq]
      cases hp : p x with
      | true => rw [List.takeWhile_cons_of_pos hp, List.takeWhile_cons_of_pos hp, List.filter_cons_of_pos hq, ih]
      | false => rw [List.takeWhile_cons_of_neg (by simp [hp]), List.takeWhile_cons_of_neg (by simp [hp])]; rfl

theorem bn_class {T : Tables} {o : Options} {c : Char} (h : charClass T o c = cBN) : T.cls c.toNat = cBN := by
  unfold charClass at h
  repeat' split at h
  all_goals first | exact absurd h (by decide) | exact h

theorem visible_paragraph (T : Tables) (o : Options) (t : List Char) : firstParagraph T o (withoutBN T o t) = withoutBN T o (firstParagraph T o t) := by
  unfold firstParagraph withoutBN
  refine takeWhile_filter (fun c hc => ?_) t
  have hb : charClass T o c = cBN := by simpa using hc
  rw [bn_class hb]
  rfl

theorem visible_classes {T : Tables} {o : Options} {t : List Char} {c : Class} (h : c ∈ classes T o (withoutBN T o t)) : c ∈ classes T o t := by
  unfold classes withoutBN at *
  obtain ⟨x, hx, rfl⟩ := List.mem_map.mp h
  exact List.mem_map_of_mem ((List.mem_filter.mp hx).1)

theorem visible_head {T : Tables} {o : Options} {t : List Char} (h : (classes T o (withoutBN T o t)).head? ≠ some cNSM) : (classes T o t).head? ≠ some cNSM := by
  cases t with
  | nil => exact h
  | cons c t =>
    intro hc
    have hc : charClass T o c = cNSM := by simpa [classes] using hc
    apply h
    unfold classes withoutBN
    rw [List.filter_cons_of_pos (by rw [hc]; decide), List.map_cons, hc]
    rfl

end Uax.Bidi
