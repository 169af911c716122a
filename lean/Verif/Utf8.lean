/-
Model of the functions of Go's package unicode/utf8 that /repo relies on (uax.go:11-12,
grapheme/string.go:191, uax11/width.go:68, segment/segment.go:241). They are not part of /repo; the
model follows their documentation and the source of Go 1.16 (utf8.go, `DecodeRuneInString`,
`AppendRune`, `RuneStart`). Bytes are natural numbers; those above 255 do not occur.
-/

namespace Uax.Utf8

/-- `utf8.RuneError`, U+FFFD. -/
def runeError : Nat := 0xFFFD

/-- `utf8.RuneStart`: not of the form 10xxxxxx. -/
def runeStart (b : Nat) : Bool := !(decide (0x80 ≤ b) && decide (b < 0xC0))

/-- A continuation byte in the given range. -/
def within (lo hi b : Nat) : Bool := decide (lo ≤ b) && decide (b ≤ hi)

/-- The tables `first` and `acceptRanges`: size, and range of the second byte. `none` is `xx`. -/
def first (p0 : Nat) : Option (Nat × Nat × Nat) :=
  if p0 < 0xC2 then none
  else if p0 < 0xE0 then some (2, 0x80, 0xBF)
  else if p0 = 0xE0 then some (3, 0xA0, 0xBF)
  else if p0 = 0xED then some (3, 0x80, 0x9F)
  else if p0 < 0xF0 then some (3, 0x80, 0xBF)
  else if p0 = 0xF0 then some (4, 0x90, 0xBF)
  else if p0 < 0xF4 then some (4, 0x80, 0xBF)
  else if p0 = 0xF4 then some (4, 0x80, 0x8F)
  else none

/-- `utf8.DecodeRune`, `utf8.DecodeRuneInString`: rune and size. The first byte is masked with 1F, 0F
or 07, the others with 3F, which are the remainders below. -/
def decode : List Nat → Nat × Nat
  | [] => (runeError, 0)
  | p0 :: rest =>
    if p0 < 0x80 then (p0, 1)
    else match first p0, rest with
      | some (2, lo, hi), b1 :: _ =>
        if within lo hi b1 then (p0 % 32 * 64 + b1 % 64, 2) else (runeError, 1)
      | some (3, lo, hi), b1 :: b2 :: _ =>
        if within lo hi b1 && within 0x80 0xBF b2 then (p0 % 16 * 4096 + b1 % 64 * 64 + b2 % 64, 3) else (runeError, 1)
      | some (4, lo, hi), b1 :: b2 :: b3 :: _ =>
        if within lo hi b1 && within 0x80 0xBF b2 && within 0x80 0xBF b3 then
          (p0 % 8 * 262144 + b1 % 64 * 4096 + b2 % 64 * 64 + b3 % 64, 4)
        else (runeError, 1)
      | _, _ => (runeError, 1)

/-- The encoding of a natural number as a rune; surrogates and too large numbers are replaced. -/
def encodeNat (r : Nat) : List Nat :=
  if r < 0x80 then [r]
  else if r < 0x800 then [0xC0 + r / 64, 0x80 + r % 64]
  else if 0x10FFFF < r ∨ (0xD800 ≤ r ∧ r < 0xE000) then [0xEF, 0xBF, 0xBD]
  else if r < 0x10000 then [0xE0 + r / 4096, 0x80 + r / 64 % 64, 0x80 + r % 64]
  else [0xF0 + r / 262144, 0x80 + r / 4096 % 64, 0x80 + r / 64 % 64, 0x80 + r % 64]

/-- `bytes.Buffer.WriteRune`, `string([]rune)`: negative runes are replaced, too. -/
def encode (r : Int) : List Nat := if r < 0 then [0xEF, 0xBF, 0xBD] else encodeNat r.toNat

end Uax.Utf8
