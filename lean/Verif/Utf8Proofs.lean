import Verif.Utf8

/-! Decoding and encoding of UTF-8 are inverse to each other. -/

namespace Uax.Utf8

/-- A Unicode scalar value. -/
def Scalar (r : Nat) : Prop := r < 0xD800 ∨ (0xE000 ≤ r ∧ r ≤ 0x10FFFF)

theorem encode_nat (r : Nat) : encode (r : Int) = encodeNat r := by
  unfold encode
  rw [if_neg (by omega)]
  rfl

theorem decode_encode (r : Nat) (h : Scalar r) (rest : List Nat) : decode (encodeNat r ++ rest) = (r, (encodeNat r).length) := by
  unfold encodeNat Scalar at *
  split
  · rename_i h1; simp [decode, h1]
  split
  · rename_i h1 h2
    simp only [List.cons_append, List.nil_append, decode, List.length_cons, List.length_nil]
    rw [if_neg (by omega)]
    have : first (0xC0 + r / 64) = some (2, 0x80, 0xBF) := by
      unfold first; rw [if_neg (by omega), if_pos (by omega)]
    rw [this]
    have w1 : within 0x80 0xBF (0x80 + r % 64) = true := by unfold within; simp; omega
    simp only [w1, if_true]
    exact Prod.ext (by simp only; omega) rfl
  split
  · omega
  split
  · rename_i h1 h2 h3 h4
    simp only [List.cons_append, List.nil_append, decode, List.length_cons, List.length_nil]
    rw [if_neg (by omega)]
    have : ∃ lo hi, first (0xE0 + r / 4096) = some (3, lo, hi) ∧ lo ≤ 0x80 + r / 64 % 64 ∧ 0x80 + r / 64 % 64 ≤ hi := by
      unfold first; rw [if_neg (by omega), if_neg (by omega)]
      split
      · exact ⟨_, _, rfl, by omega, by omega⟩
      split
      · exact ⟨_, _, rfl, by omega, by omega⟩
      rw [if_pos (by omega)]
      exact ⟨_, _, rfl, by omega, by omega⟩
    obtain ⟨lo, hi, e, e1, e2⟩ := this
    rw [e]
    have w1 : within lo hi (0x80 + r / 64 % 64) = true := by unfold within; simp; omega
    have w2 : within 0x80 0xBF (0x80 + r % 64) = true := by unfold within; simp; omega
    simp only [w1, w2, Bool.and_true, if_true]
    exact Prod.ext (by simp only; omega) rfl
  · rename_i h1 h2 h3 h4
    simp only [List.cons_append, List.nil_append, decode, List.length_cons, List.length_nil]
    rw [if_neg (by omega)]
    have : ∃ lo hi, first (0xF0 + r / 262144) = some (4, lo, hi) ∧ lo ≤ 0x80 + r / 4096 % 64 ∧ 0x80 + r / 4096 % 64 ≤ hi := by
      unfold first; rw [if_neg (by omega), if_neg (by omega), if_neg (by omega), if_neg (by omega), if_neg (by omega)]
      split
      · exact ⟨_, _, rfl, by omega, by omega⟩
      split
      · exact ⟨_, _, rfl, by omega, by omega⟩
      rw [if_pos (by omega)]
      exact ⟨_, _, rfl, by omega, by omega⟩
    obtain ⟨lo, hi, e, e1, e2⟩ := this
    rw [e]
    have w1 : within lo hi (0x80 + r / 4096 % 64) = true := by unfold within; simp; omega
    have w2 : within 0x80 0xBF (0x80 + r / 64 % 64) = true := by unfold within; simp; omega
    have w3 : within 0x80 0xBF (0x80 + r % 64) = true := by unfold within; simp; omega
    simp only [w1, w2, w3, Bool.and_true, if_true]
    exact Prod.ext (by simp only; omega) rfl

/-- What `first` says about a byte. -/
theorem first_some {p0 sz lo hi : Nat} (h : first p0 = some (sz, lo, hi)) :
    (sz = 2 ∧ 0xC2 ≤ p0 ∧ p0 < 0xE0 ∧ lo = 0x80 ∧ hi = 0xBF) ∨
    (sz = 3 ∧ 0xE0 ≤ p0 ∧ p0 < 0xF0 ∧ 0x80 ≤ lo ∧ hi ≤ 0xBF ∧ (p0 = 0xE0 → lo = 0xA0) ∧ (p0 = 0xED → hi = 0x9F)) ∨
    (sz = 4 ∧ 0xF0 ≤ p0 ∧ p0 ≤ 0xF4 ∧ 0x80 ≤ lo ∧ hi ≤ 0xBF ∧ (p0 = 0xF0 → lo = 0x90) ∧ (p0 = 0xF4 → hi = 0x8F)) := by
  unfold first at h
  split at h
  · cases h
  all_goals (try split at h)
  all_goals (try split at h)
  all_goals (try split at h)
  all_goals (try split at h)
  all_goals (try split at h)
  all_goals (try split at h)
  all_goals (try split at h)
  all_goals first
    | cases h; done
    | (simp only [Option.some.injEq, Prod.mk.injEq] at h; omega)

/-- Either there is nothing to decode, or an error, or the rune's encoding comes first. -/
theorem decode_cases (b : List Nat) :
    (b = [] ∧ decode b = (runeError, 0)) ∨ (b ≠ [] ∧ decode b = (runeError, 1)) ∨
    (∃ r rest, Scalar r ∧ b = encodeNat r ++ rest ∧ decode b = (r, (encodeNat r).length)) := by
  cases b with
  | nil => exact Or.inl ⟨rfl, rfl⟩
  | cons p0 rest =>
    right
    have key : ∀ r rest', Scalar r → p0 :: rest = encodeNat r ++ rest' →
        (∃ r rest', Scalar r ∧ p0 :: rest = encodeNat r ++ rest' ∧ decode (p0 :: rest) = (r, (encodeNat r).length)) :=
      fun r rest' hs he => ⟨r, rest', hs, he, by rw [he]; exact decode_encode r hs rest'⟩
    by_cases h0 : p0 < 0x80
    · exact Or.inr (key p0 rest (Or.inl (by omega)) (by unfold encodeNat; rw [if_pos h0]; rfl))
    · have hd : decode (p0 :: rest) = decode (p0 :: rest) := rfl
      conv at hd => rhs; unfold decode
      simp only [if_neg h0] at hd
      rw [hd]
      clear key hd
      split
      · rename_i lo hi b1 t e
        split
        · rename_i hw
          right
          simp only [within, Bool.and_eq_true, decide_eq_true_eq] at hw
          have := first_some e
          have hs : Scalar (p0 % 32 * 64 + b1 % 64) := Or.inl (by omega)
          have he : p0 :: b1 :: t = encodeNat (p0 % 32 * 64 + b1 % 64) ++ t := by
            unfold encodeNat
            rw [if_neg (by omega), if_pos (by omega)]
            simp only [List.cons_append, List.nil_append, List.cons.injEq, and_true]
            omega
          refine ⟨_, t, hs, he, ?_⟩
          have := decode_encode _ hs t
          unfold encodeNat
          rw [if_neg (by omega), if_pos (by omega)]
          rfl
        · exact Or.inl ⟨by simp, rfl⟩
      · rename_i lo hi b1 b2 t e
        split
        · rename_i hw
          right
          simp only [within, Bool.and_eq_true, decide_eq_true_eq] at hw
          have := first_some e
          have hs : Scalar (p0 % 16 * 4096 + b1 % 64 * 64 + b2 % 64) := by unfold Scalar; omega
          have hl : encodeNat (p0 % 16 * 4096 + b1 % 64 * 64 + b2 % 64) = [p0, b1, b2] := by
            unfold encodeNat
            unfold Scalar at hs
            rw [if_neg (by omega), if_neg (by omega), if_neg (by omega), if_pos (by omega)]
            simp only [List.cons.injEq, and_true]
            omega
          exact ⟨_, t, hs, by rw [hl]; rfl, by rw [hl]; rfl⟩
        · exact Or.inl ⟨by simp, rfl⟩
      · rename_i lo hi b1 b2 b3 t e
        split
        · rename_i hw
          right
          simp only [within, Bool.and_eq_true, decide_eq_true_eq] at hw
          have := first_some e
          have hs : Scalar (p0 % 8 * 262144 + b1 % 64 * 4096 + b2 % 64 * 64 + b3 % 64) := by unfold Scalar; omega
          have hl : encodeNat (p0 % 8 * 262144 + b1 % 64 * 4096 + b2 % 64 * 64 + b3 % 64) = [p0, b1, b2, b3] := by
            unfold encodeNat
            unfold Scalar at hs
            rw [if_neg (by omega), if_neg (by omega), if_neg (by omega), if_neg (by omega)]
            simp only [List.cons.injEq, and_true]
            omega
          exact ⟨_, t, hs, by rw [hl]; rfl, by rw [hl]; rfl⟩
        · exact Or.inl ⟨by simp, rfl⟩
      · exact Or.inl ⟨by simp, rfl⟩

theorem encodeNat_ne (r : Nat) : encodeNat r ≠ [] := by
  unfold encodeNat
  repeat' split
  all_goals simp

/-- A rune's encoding begins with a byte that is no continuation byte. -/
theorem encodeNat_start (r : Nat) (h : Scalar r) : ∃ p0 t, encodeNat r = p0 :: t ∧ runeStart p0 = true := by
  unfold encodeNat Scalar at *
  unfold runeStart
  repeat' split
  all_goals exact ⟨_, _, rfl, by simp <;> omega⟩

/-- The encoding is that of Lean's library. -/
theorem encodeNat_char (c : Char) : encodeNat c.toNat = (String.utf8EncodeChar c).map UInt8.toNat := by
  have hv : c.toNat.isValidChar := c.valid
  unfold Nat.isValidChar at hv
  unfold encodeNat String.utf8EncodeChar
  show _ = List.map _ (if c.toNat ≤ 127 then _ else _)
  simp only [show c.val.toNat = c.toNat from rfl]
  generalize c.toNat = v at *
  by_cases h1 : v < 0x80
  · rw [if_pos h1, if_pos (show v ≤ 127 by omega)]
    simp [UInt8.toNat_ofNat']; omega
  rw [if_neg h1, if_neg (show ¬ v ≤ 127 by omega)]
  by_cases h2 : v < 0x800
  · rw [if_pos h2, if_pos (show v ≤ 2047 by omega)]
    simp [UInt8.toNat_ofNat']; omega
  rw [if_neg h2, if_neg (show ¬ v ≤ 2047 by omega), if_neg (show ¬ (0x10FFFF < v ∨ (0xD800 ≤ v ∧ v < 0xE000)) by omega)]
  by_cases h3 : v < 0x10000
  · rw [if_pos h3, if_pos (show v ≤ 65535 by omega)]
    simp [UInt8.toNat_ofNat']; omega
  rw [if_neg h3, if_neg (show ¬ v ≤ 65535 by omega)]
  simp [UInt8.toNat_ofNat']; omega

theorem char_scalar (c : Char) : Scalar c.toNat := by
  have hv : c.toNat.isValidChar := c.valid
  unfold Nat.isValidChar at hv
  unfold Scalar
  omega

end Uax.Utf8
