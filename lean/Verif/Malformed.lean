import Verif.BidiChars
import Verif.SpecMalformed

/-
Malformed UTF-8 in the input of the bidi scanner: its tokens are those of a text in which each malformed byte is replaced by U+FFFD.
-/
namespace Uax.Bidi
open Spec

theorem scalar_char {r : Nat} (h : Utf8.Scalar r) : (Char.ofNat r).toNat = r := by
  have hv : r.isValidChar := by
    unfold Utf8.Scalar at h
    unfold Nat.isValidChar
    omega
  simp [Char.ofNat, hv, Char.toNat, Char.ofNatAux]

/-- A byte is malformed if and only if it is decoded as an error of length 1. -/
theorem decode_char (c : Char) (rest : List Nat) : Utf8.decode (utf8 [c] ++ rest) = (c.toNat, (utf8 [c]).length) := by
  rw [utf8_one]
  exact Utf8.decode_encode c.toNat (Utf8.char_scalar c) rest

theorem decode_not_error (c : Char) : ¬ (c.toNat = Utf8.runeError ∧ (utf8 [c]).length = 1) := by
  rintro ⟨h1, h2⟩
  rw [utf8_one, h1] at h2
  revert h2
  decide

theorem reads_exists : ∀ (n : Nat) (b : List Nat), b.length ≤ n → ∃ t k, ReadsAs b t k := by
  intro n
  induction n with
  | zero =>
    intro b hb
    cases b with
    | nil => exact ⟨_, _, .none⟩
    | cons x b => exact absurd hb (by simp)
  | succ n ih =>
    intro b hb
    by_cases hc : ∃ c rest, b = utf8 [c] ++ rest
    · obtain ⟨c, rest, rfl⟩ := hc
      have hp : 0 < (utf8 [c]).length := by rw [utf8_one]; exact List.length_pos_iff.mpr (Utf8.encodeNat_ne c.toNat)
      rw [List.length_append] at hb
      obtain ⟨t, k, h⟩ := ih rest (by omega)
      exact ⟨_, _, .char c h⟩
    · cases b with
      | nil => exact ⟨_, _, .none⟩
      | cons x b =>
        obtain ⟨t, k, h⟩ := ih b (by simpa using hb)
        exact ⟨_, _, .malformed x (fun c rest e => hc ⟨c, rest, e⟩) h⟩

theorem decode_malformed {x : Nat} {b : List Nat} (h : ∀ c rest, x :: b ≠ utf8 [c] ++ rest) : Utf8.decode (x :: b) = (Utf8.runeError, 1) := by
  rcases Utf8.decode_cases (x :: b) with ⟨h1, -⟩ | ⟨-, h1⟩ | ⟨r, rest, hs, hb, -⟩
  · cases h1
  · exact h1
  · refine absurd ?_ (h (Char.ofNat r) rest)
    rw [utf8_one, scalar_char hs]
    exact hb

theorem scanRunes_cons (n : Nat) (x : Nat) (b : List Nat) : scanRunes (n + 1) (x :: b) =
    if (Utf8.decode (x :: b)).1 = Utf8.runeError ∧ (Utf8.decode (x :: b)).2 = 1 then (Utf8.runeError, 3) :: scanRunes n b
    else Utf8.decode (x :: b) :: scanRunes n ((x :: b).drop (Utf8.decode (x :: b)).2) := by
  rw [scanRunes]
  · rfl
  · simp

theorem scanRunes_reads {b : List Nat} {t : List Char} {k : Nat} (h : ReadsAs b t k) :
    ∀ n, b.length ≤ n → scanRunes n b = t.map fun c => (c.toNat, (utf8 [c]).length) := by
  induction h with
  | none => intro n _; cases n <;> rfl
  | @char b t k c h ih =>
    intro n hn
    obtain ⟨x, xs, hx⟩ := List.exists_cons_of_ne_nil (l := utf8 [c]) (by rw [utf8_one]; exact Utf8.encodeNat_ne c.toNat)
    have hd := decode_char c b
    rw [List.length_append] at hn
    have hp : 0 < (utf8 [c]).length := by rw [hx]; simp
    obtain ⟨n, rfl⟩ : ∃ k, n = k + 1 := ⟨n - 1, by omega⟩
    have e : utf8 [c] ++ b = x :: (xs ++ b) := by rw [hx]; rfl
    rw [e, scanRunes_cons, ← e, hd, if_neg (decode_not_error c), List.map_cons, List.drop_left, ih n (by omega)]
  | @malformed b t k x hx h ih =>
    intro n hn
    rw [List.length_cons] at hn
    obtain ⟨n, rfl⟩ : ∃ k, n = k + 1 := ⟨n - 1, by omega⟩
    rw [scanRunes_cons, decode_malformed hx, if_pos ⟨rfl, rfl⟩, ih n (by omega)]
    rfl

/-- The tokens of any bytes are those of the text they are read as. -/
theorem runesOf_reads {b : List Nat} {t : List Char} {k : Nat} (h : ReadsAs b t k) : runesOf b = runesOf (utf8 t) := by
  rw [runesOf_text]
  exact scanRunes_reads h _ (Nat.le_refl _)

theorem reads_length {b : List Nat} {t : List Char} {k : Nat} (h : ReadsAs b t k) : (utf8 t).length = b.length + 2 * k := by
  induction h with
  | none => rfl
  | char c _ ih => 
    rw [utf8_cons, ← utf8_one, List.length_append, List.length_append, ih]
    omega
  | malformed x _ _ ih =>
    rw [utf8_cons, ← utf8_one, List.length_append, ih, List.length_cons, show (utf8 ['�']).length = 3 by decide]
    omega

theorem reads_text : ∀ t : List Char, ReadsAs (utf8 t) t 0
  | [] => .none
  | c :: t => by
    rw [utf8_cons, ← utf8_one]
    exact .char c (reads_text t)

theorem reads_append {b : List Nat} {t : List Char} {k : Nat} (h : ReadsAs b t k) : ∀ pre : List Char, ReadsAs (utf8 pre ++ b) (pre ++ t) k
  | [] => h
  | c :: pre => by
    rw [utf8_cons, ← utf8_one, List.append_assoc]
    exact .char c (reads_append h pre)

theorem reads_unique {b : List Nat} {t : List Char} {k : Nat} (h : ReadsAs b t k) : ∀ {t' : List Char} {k' : Nat}, ReadsAs b t' k' → t = t' ∧ k = k' := by
  induction h with
  | none =>
    intro t' k' h'
    generalize hb : ([] : List Nat) = b at h'
    cases h' with
    | none => exact ⟨rfl, rfl⟩
    | char c h => 
      rw [utf8_one] at hb
      exact absurd (List.append_eq_nil_iff.mp hb.symm).1 (Utf8.encodeNat_ne c.toNat)
    | malformed x _ _ => cases hb
  | @char b t k c h ih =>
    intro t' k' h'
    generalize hb : utf8 [c] ++ b = b' at h'
    cases h' with
    | none => 
      rw [utf8_one] at hb
      exact absurd (List.append_eq_nil_iff.mp hb).1 (Utf8.encodeNat_ne c.toNat)
    | @char b2 t2 k2 c2 h2 =>
      have h1 := decode_char c b
      have h3 := decode_char c2 b2
      rw [hb, h3] at h1
      have hc : c2 = c := Char.ext (UInt32.toNat_inj.mp (congrArg Prod.fst h1))
      subst hc
      obtain ⟨rfl, rfl⟩ := ih (by rw [List.append_cancel_left hb]; exact h2)
      exact ⟨rfl, rfl⟩
    | malformed x hx _ => exact absurd hb.symm (hx c b)
  | @malformed b t k x hx h ih =>
    intro t' k' h'
    generalize hb : x :: b = b' at h'
    cases h' with
    | none => cases hb
    | char c h2 => exact absurd hb (hx c _)
    | malformed x2 _ h2 =>
      cases hb
      obtain ⟨rfl, rfl⟩ := ih h2
      exact ⟨rfl, rfl⟩

theorem encodeNat_tail (r : Nat) : ∀ x ∈ (Utf8.encodeNat r).tail, Utf8.runeStart x = false := by
  unfold Utf8.encodeNat
  repeat' split
  all_goals
    intro x hx
    simp only [List.tail_cons, List.mem_cons, List.not_mem_nil, or_false] at hx <;>
      simp only [Utf8.runeStart, Bool.not_eq_false', Bool.and_eq_true, decide_eq_true_eq] <;> omega

/-- Malformed bytes do not become well-formed by a character after them. -/
theorem malformed_before {x : Nat} {b : List Nat} (h : ∀ c rest, x :: b ≠ utf8 [c] ++ rest) (d : Char) (b2 : List Nat) :
    ∀ c rest, x :: (b ++ (utf8 [d] ++ b2)) ≠ utf8 [c] ++ rest := by
  intro c rest e
  rw [← List.cons_append] at e
  rcases List.append_eq_append_iff.mp e with ⟨as, h1, h2⟩ | ⟨as, h1, h2⟩
  · cases as with
    | nil => exact h c [] (by rw [List.append_nil] at h1 ⊢; exact h1.symm)
    | cons a as =>
      obtain ⟨p0, t, e1, e2⟩ := Utf8.encodeNat_start d.toNat (Utf8.char_scalar d)
      rw [utf8_one, e1, List.cons_append, List.cons_append] at h2
      have ha : a = p0 := (List.cons.inj h2).1.symm
      have := encodeNat_tail c.toNat a (by rw [← utf8_one, h1]; simp)
      rw [ha, e2] at this
      cases this
  · exact h c as h1

/-- What comes before a character and what comes after it are read independently. -/
theorem reads_around {b1 b2 : List Nat} {t1 t2 : List Char} {k1 k2 : Nat} (c : Char) (h1 : ReadsAs b1 t1 k1) (h2 : ReadsAs b2 t2 k2) :
    ReadsAs (b1 ++ (utf8 [c] ++ b2)) (t1 ++ c :: t2) (k1 + k2) := by
  induction h1 with
  | none =>
    rw [Nat.zero_add]
    exact .char c h2
  | char d _ ih =>
    rw [List.append_assoc]
    exact .char d ih
  | malformed x hx _ ih =>
    rw [Nat.add_right_comm]
    exact .malformed x (malformed_before hx c b2) ih

end Uax.Bidi
